/-
C102: the boundary through refinement and smoothing (Delaunay.h:500-730).

A refinement never loses a side of the boundary: if all outer sides of a consistent triangulation are marked
and end in nodes on the boundary, then the same holds afterwards, and the new node is put on the boundary
exactly if it is in the middle of a marked side (`C102_refine`).  So the smoothing that follows is well
defined, moves no node of the boundary and keeps the marks and the area (`C102_smooth`).  As long as no
smoothing turns an element over, this goes on for all rounds of `makefinemesh` (`C102_fine`), and
`GenerateEdges` returns the outer sides and nothing else (`C102_edges`).
-/
import Verif.Lemmas.DelaunaySides
import Verif.Lemmas.DelaunayLongest
import Verif.Props.C59_Delaunay
import Verif.Props.C100_Smoothing
import Mathlib.Data.Fintype.Fin

namespace Pansfem

set_option linter.unusedSectionVars false

variable {K : Type} [Field K] [LinearOrder K] [IsStrictOrderedRing K]

/-- A node on the boundary. -/
def Flagged (nodes : List (DNode K)) (z : ℤ) : Prop := ∃ p, atInt nodes z = some p ∧ p.isonboundary = true

/-- A consistent triangulation whose outer sides are marked (with `strict`: and no other sides), whose marked
sides end in nodes on the boundary, and whose other nodes are all in use. -/
structure BoundaryMarked (strict : Prop) (d : Delaunay K) : Prop where
  consistent : Consistent d.nodes d.elements
  outer : ∀ e ∈ d.elements, ∀ i, e.neighbors i = -1 → e.sides i = true
  only : strict → ∀ e ∈ d.elements, ∀ i, e.sides i = true → e.neighbors i = -1
  ends : ∀ e ∈ d.elements, ∀ i, e.sides i = true →
    Flagged d.nodes (e.nodes (i + 1)) ∧ Flagged d.nodes (e.nodes (i + 2))
  used : ∀ (i : ℕ) (p : DNode K), d.nodes[i]? = some p → p.isonboundary = false →
    ∃ e ∈ d.elements, ∃ k, e.nodes k = (i : ℤ)

theorem BoundaryMarked.sides {strict : Prop} {d : Delaunay K} (h : BoundaryMarked strict d) :
    SidesOK (Flagged d.nodes) strict d.elements :=
  fun e he i => ⟨h.outer e he i, fun hs => h.only hs e he i, h.ends e he i⟩

theorem BoundaryMarked.ready {strict : Prop} {d : Delaunay K} (h : BoundaryMarked strict d) :
    SmoothReady (placeOf d.nodes) d.nodes d.elements where
  linked := h.consistent.linked
  oriented := h.consistent.oriented
  indices := h.consistent.indices
  used := by
    intro i p hp hb
    obtain ⟨e, he, k, hk⟩ := h.used i p hp hb
    obtain ⟨t, ht⟩ := List.mem_iff_getElem?.1 he
    exact ⟨t, e, k, ht, hk⟩
  outer := fun t e i he hn =>
    h.ends e (List.mem_of_getElem? he) i (h.outer e (List.mem_of_getElem? he) i hn)

theorem markBoundary_last (l : List (DNode K)) (p : DNode K) (hp : p.isonboundary = false) (b : Bool) :
    markBoundary (l ++ [p]) l.length b = some (l ++ [{ p with isonboundary := b }]) := by
  cases b with
  | false =>
    rw [markBoundary, if_neg (by decide), ← hp]
  | true =>
    rw [markBoundary, if_pos rfl, atInt, if_neg (by omega), Int.toNat_natCast,
      List.getElem?_append_right le_rfl]
    simp

theorem flagged_append {l : List (DNode K)} {z : ℤ} (h : Flagged l z) (p : DNode K) : Flagged (l ++ [p]) z := by
  obtain ⟨r, h1, h2⟩ := h
  unfold atInt at h1
  split_ifs at h1 with hz
  refine ⟨r, ?_, h2⟩
  rw [atInt, if_neg hz, List.getElem?_append_left (lt_of_some h1), h1]

/-- **Refinement** (Delaunay.h:699-700) of any side: the marks stay right, and the new node in the middle of
the side is on the boundary exactly if the side is marked. -/
theorem C102_refine {strict : Prop} (d : Delaunay K) (hd : BoundaryMarked strict d) {t : ℕ} {e : DTri}
    (he : d.elements[t]? = some e) (k : Fin 3) {rounds : ℕ} (hr : 2 * d.elements.length + 8 ≤ rounds) :
    ∃ d', d.refine rounds t k = some d' ∧ BoundaryMarked strict d' ∧
      total2 (placeOf d'.nodes) d'.elements = total2 (placeOf d.nodes) d.elements ∧
      d'.nodes = d.nodes ++ [⟨(((placeOf d.nodes (e.nodes (k + 1))).1 + (placeOf d.nodes (e.nodes (k + 2))).1) / 2,
        ((placeOf d.nodes (e.nodes (k + 1))).2 + (placeOf d.nodes (e.nodes (k + 2))).2) / 2), false, e.sides k⟩] ∧
      d'.elements.length ≤ d.elements.length + 2 := by
  obtain ⟨d', h1, ⟨h2, h3⟩, h4⟩ := C59_refine d hd.consistent he k hr
  have hc := hd.consistent
  have ie := hc.indices e (List.mem_of_getElem? he)
  obtain ⟨a, ha, ha'⟩ := atInt_some (ie (k + 1)).1 (ie (k + 1)).2
  obtain ⟨b, hb, hb'⟩ := atInt_some (ie (k + 2)).1 (ie (k + 2)).2
  let p : DNode K := DNode.fresh (1 / 2 * (a.x.1 + b.x.1), 1 / 2 * (a.x.2 + b.x.2))
  let d1 : Delaunay K := { d with nodes := d.nodes ++ [p] }
  obtain ⟨hc1, -⟩ := hc.congr (nodes' := d1.nodes) (fun z z0 z1 => place_append _ p z0 z1) (by simp [d1])
  have hon : OnSegment (placeOf d1.nodes (e.nodes (k + 1))) (placeOf d1.nodes (e.nodes (k + 2)))
      (placeOf d1.nodes d.nodes.length) := by
    refine ⟨1 / 2, by norm_num, by norm_num, ?_⟩
    rw [place_append _ p (ie _).1 (ie _).2, place_append _ p (ie _).1 (ie _).2, place_last, ← ha', ← hb']
    simp only [p, DNode.fresh, Prod.mk.injEq]
    constructor <;> ring
  have hm := markBoundary_last d.nodes p rfl (e.sides k)
  have h1' := h1
  unfold Delaunay.refine at h1'
  rw [he] at h1'
  simp only [bind, Option.bind, ha, hb] at h1'
  have hlast : e.sides k = true → Flagged (d.nodes ++ [{ p with isonboundary := e.sides k }]) d.nodes.length := by
    intro h
    refine ⟨{ p with isonboundary := e.sides k }, ?_, h⟩
    rw [atInt, if_neg (by omega), Int.toNat_natCast, List.getElem?_append_right le_rfl]
    simp
  obtain ⟨s1, s2, s3, s4, s5⟩ := getelementon_sides (d := d1)
    (F := Flagged (d.nodes ++ [{ p with isonboundary := e.sides k }])) (strict := strict) hc1 he
    (by simp [d1]) k hon (by decide) (by decide) hm h1' (hd.sides.mono fun z hz => flagged_append hz _) hlast
  refine ⟨d', h1, ⟨h2, fun e he i => (s2 e he i).1, fun hs e he i => (s2 e he i).2.1 hs,
    fun e he i => by rw [s1]; exact (s2 e he i).2.2, ?_⟩, h3, ?_, s5⟩
  · intro i r hr' hb'
    rw [s1] at hr'
    rcases Nat.lt_or_ge i d.nodes.length with hi | hi
    · rw [List.getElem?_append_left hi] at hr'
      exact s4 i (hd.used i r hr' hb')
    · have hlt := lt_of_some hr'
      simp only [List.length_append, List.length_cons, List.length_nil] at hlt
      have : i = d.nodes.length := by omega
      rw [this]
      exact s3
  · rw [s1, ← ha', ← hb']
    simp only [p, DNode.fresh]
    congr 3
    simp only [Prod.mk.injEq]
    constructor <;> ring

/-- **Smoothing** (Delaunay.h:706-730): it ends, no node on the boundary moves, the marks and the area stay,
and if all elements are counterclockwise afterwards the triangulation is again as it was. -/
theorem C102_smooth {strict : Prop} (d : Delaunay K) (hd : BoundaryMarked strict d) {rounds : ℕ}
    (hr : d.elements.length ≤ rounds) :
    ∃ d', d.laplacesmoothing rounds = some d' ∧ d'.elements = d.elements ∧ SameFlags d.nodes d'.nodes ∧
      (∀ z, Flagged d.nodes z → placeOf d'.nodes z = placeOf d.nodes z) ∧
      total2 (placeOf d'.nodes) d'.elements = total2 (placeOf d.nodes) d.elements ∧
      (Oriented (placeOf d'.nodes) d'.elements → BoundaryMarked strict d') := by
  obtain ⟨d', h1, h2, h3, h4, -, h6⟩ := C100_smoothing d hd.ready hr
  have hfl : ∀ z, Flagged d.nodes z → Flagged d'.nodes z := by
    rintro z ⟨p, a1, a2⟩
    unfold atInt at a1
    split_ifs at a1 with hz
    obtain ⟨p', b1, -, b3⟩ := h3.2 _ p a1
    exact ⟨p', by rw [atInt, if_neg hz, b1], by rw [b3, a2]⟩
  refine ⟨d', h1, h2, h3, ?_, C100_area d hd.ready hr h1, fun ho => ⟨⟨?_, ho, ?_, ?_⟩, ?_, ?_, ?_, ?_⟩⟩
  · rintro z ⟨p, a1, a2⟩
    unfold placeOf
    unfold atInt at a1 ⊢
    split_ifs at a1 with hz
    rw [if_neg hz, if_neg hz, h4 _ p a1 a2, a1]
  · rw [h2]; exact hd.consistent.linked
  · rw [h2, h3.1]; exact hd.consistent.indices
  · rw [h2]; exact hd.consistent.active
  · rw [h2]; exact hd.outer
  · rw [h2]; exact hd.only
  · rw [h2]
    exact fun e he i hs => ⟨hfl _ (hd.ends e he i hs).1, hfl _ (hd.ends e he i hs).2⟩
  · intro i p' hp hb
    obtain ⟨p, a1, -, a3⟩ := h3.back hp
    rw [h2]
    exact hd.used i p a1 (by rw [← a3, hb])

theorem fin3_mem : ∀ i : Fin 3, i ∈ ([0, 1, 2] : List (Fin 3)) := by decide

/-- **The edges that are returned** (Delaunay.h:757-770) are the outer sides, counterclockwise. -/
theorem C102_edges (d : Delaunay K) (hd : BoundaryMarked True d) (l : List ℤ) :
    l ∈ d.generateEdges ↔ ∃ e ∈ d.elements, ∃ i, e.neighbors i = -1 ∧ l = [e.nodes (i + 1), e.nodes (i + 2)] := by
  unfold Delaunay.generateEdges
  simp only [List.mem_flatMap]
  constructor
  · rintro ⟨e, he, h⟩
    rw [if_pos (hd.consistent.active e he)] at h
    simp only [List.mem_flatMap] at h
    obtain ⟨i, -, h⟩ := h
    split_ifs at h with hs
    · exact ⟨e, he, i, hd.only trivial e he i hs, by simpa using h⟩
    · simp at h
  · rintro ⟨e, he, i, hn, rfl⟩
    refine ⟨e, he, ?_⟩
    rw [if_pos (hd.consistent.active e he), List.mem_flatMap]
    exact ⟨i, fin3_mem i, by rw [if_pos (hd.outer e he i hn)]; simp⟩

/-- One round of `makefinemesh` (Delaunay.h:684-701): `m` is the longest side that was found in `d`. -/
def FineRound (rounds : ℕ) (d : Delaunay K) (m : K × ℕ × Fin 3) (d' : Delaunay K) : Prop :=
  longest d = some m ∧ ∃ d1, d.refine rounds m.2.1 m.2.2 = some d1 ∧ d1.laplacesmoothing rounds = some d'

/-- Some rounds one after the other. -/
inductive FineRun (rounds : ℕ) : ℕ → Delaunay K → Delaunay K → Prop
  | start (d : Delaunay K) : FineRun rounds 0 d d
  | next {n : ℕ} {d d1 d2 : Delaunay K} {m : K × ℕ × Fin 3} : FineRun rounds n d d1 → FineRound rounds d1 m d2 →
    FineRun rounds (n + 1) d d2

theorem FineRun.cons {rounds n : ℕ} {d d1 d2 : Delaunay K} {m : K × ℕ × Fin 3} (h : FineRound rounds d m d1)
    (hr : FineRun rounds n d1 d2) : FineRun rounds (n + 1) d d2 := by
  induction hr with
  | start d1 => exact .next (.start d) h
  | next _ h2 ih => exact .next (ih h) h2

theorem FineRound.unique {rounds : ℕ} {d d1 d2 : Delaunay K} {m m' : K × ℕ × Fin 3} (h : FineRound rounds d m d1)
    (h' : FineRound rounds d m' d2) : m = m' ∧ d1 = d2 := by
  obtain ⟨c1, x1, c2, c3⟩ := h
  obtain ⟨e1, x2, e2, e3⟩ := h'
  rw [c1] at e1
  cases e1
  rw [c2] at e2
  cases e2
  rw [c3] at e3
  cases e3
  exact ⟨rfl, rfl⟩

theorem FineRun.split {rounds n : ℕ} {d d1 d2 : Delaunay K} {m : K × ℕ × Fin 3} (hr : FineRun rounds n d d2)
    (h : FineRound rounds d m d1) : (n = 0 ∧ d2 = d) ∨ ∃ k, n = k + 1 ∧ FineRun rounds k d1 d2 := by
  induction hr with
  | start => exact Or.inl ⟨rfl, rfl⟩
  | next h1 h2 ih =>
    rcases ih h with ⟨rfl, rfl⟩ | ⟨k, rfl, h3⟩
    · obtain ⟨rfl, rfl⟩ := h.unique h2
      exact Or.inr ⟨0, rfl, .start _⟩
    · exact Or.inr ⟨k + 1, rfl, .next h3 h2⟩

/-- The side that is refined exists. -/
theorem longest_exists {d : Delaunay K} (hc : Consistent d.nodes d.elements) (hne : d.elements ≠ []) :
    ∃ m e, longest d = some m ∧ d.elements[m.2.1]? = some e := by
  obtain ⟨m, h1, h2⟩ := longest_spec hc.indices
  rcases h2.hit with rfl | ⟨e, h3, -⟩
  · have hpos := List.length_pos_iff.2 hne
    exact ⟨_, _, h1, List.getElem?_eq_getElem hpos⟩
  · exact ⟨m, e, h1, h3⟩

theorem flagged_prefix {l l' : List (DNode K)} (hp : ∀ (i : ℕ) (p : DNode K), l[i]? = some p →
    p.isonboundary = true → l'[i]? = some p) {z : ℤ} (h : Flagged l z) : Flagged l' z := by
  obtain ⟨p, h1, h2⟩ := h
  unfold atInt at h1
  split_ifs at h1 with hz
  exact ⟨p, by rw [atInt, if_neg hz, hp _ p h1 h2], h2⟩

/-- **One round** is always possible, and it keeps everything unless the smoothing turns an element over. -/
theorem C102_round {strict : Prop} (d : Delaunay K) (hd : BoundaryMarked strict d) (hne : d.elements ≠ [])
    {rounds : ℕ} (hr : 2 * d.elements.length + 8 ≤ rounds) :
    ∃ m d', FineRound rounds d m d' ∧ d'.elements ≠ [] ∧ d'.elements.length ≤ d.elements.length + 2 ∧
      d'.nodes.length = d.nodes.length + 1 ∧
      total2 (placeOf d'.nodes) d'.elements = total2 (placeOf d.nodes) d.elements ∧
      (∀ z, Flagged d.nodes z → Flagged d'.nodes z ∧ placeOf d'.nodes z = placeOf d.nodes z) ∧
      (Oriented (placeOf d'.nodes) d'.elements → BoundaryMarked strict d') := by
  obtain ⟨m, e, h1, h2⟩ := longest_exists hd.consistent hne
  obtain ⟨d1, h3, h4, h5, h6, h7⟩ := C102_refine d hd h2 m.2.2 hr
  obtain ⟨d', k1, k2, k3, k4, k5, k6⟩ := C102_smooth d1 h4 (rounds := rounds) (by omega)
  have hlen1 : d1.nodes.length = d.nodes.length + 1 := by rw [h6]; simp
  have hne1 : d1.elements ≠ [] := by
    intro h0
    have ht := h5
    rw [h0] at ht
    have hp : 0 < total2 (placeOf d.nodes) d.elements := by
      unfold total2
      refine List.sum_pos _ ?_ (by simpa using hne)
      intro x hx
      obtain ⟨g, hg, rfl⟩ := List.mem_map.1 hx
      exact hd.consistent.oriented g hg
    rw [← ht] at hp
    simp [total2] at hp
  refine ⟨m, d', ⟨h1, d1, h3, k1⟩, by rw [k2]; exact hne1, by rw [k2]; exact h7, by rw [k3.1, hlen1],
    k5.trans h5, ?_, k6⟩
  intro z hz
  have hz1 : Flagged d1.nodes z := by rw [h6]; exact flagged_append hz _
  have hz2 : placeOf d1.nodes z = placeOf d.nodes z := by
    obtain ⟨p, a1, -⟩ := hz
    unfold atInt at a1
    split_ifs at a1 with h0
    rw [h6, place_append _ _ (by omega) (by have := lt_of_some a1; omega)]
  refine ⟨?_, (k4 z hz1).trans hz2⟩
  obtain ⟨p, a1, a2⟩ := hz1
  unfold atInt at a1
  split_ifs at a1 with h0
  obtain ⟨p', b1, -, b3⟩ := k3.2 _ p a1
  exact ⟨p', by rw [atInt, if_neg h0, b1], by rw [b3, a2]⟩

/-- **All rounds** (Delaunay.h:681-703), as long as no smoothing turns an element over (`C101_false` shows
that one can): after any number of rounds the triangulation is consistent, its outer sides are marked, the
area is the same, every round has added one node, and no node of the boundary has moved. -/
theorem C102_fine {strict : Prop} (d : Delaunay K) (hd : BoundaryMarked strict d) (hne : d.elements ≠ []) {N rounds : ℕ}
    (hr : 2 * (d.elements.length + 2 * N) + 8 ≤ rounds)
    (ho : ∀ n d1, n ≤ N → FineRun rounds n d d1 → Oriented (placeOf d1.nodes) d1.elements) :
    ∀ n d1, n ≤ N → FineRun rounds n d d1 → BoundaryMarked strict d1 ∧ d1.elements ≠ [] ∧
      d1.elements.length ≤ d.elements.length + 2 * n ∧ d1.nodes.length = d.nodes.length + n ∧
      total2 (placeOf d1.nodes) d1.elements = total2 (placeOf d.nodes) d.elements ∧
      (∀ z, Flagged d.nodes z → Flagged d1.nodes z ∧ placeOf d1.nodes z = placeOf d.nodes z) := by
  intro n
  induction n with
  | zero =>
    intro d1 _ h
    cases h
    exact ⟨hd, hne, le_rfl, rfl, rfl, fun z hz => ⟨hz, rfl⟩⟩
  | succ n ih =>
    intro d2 hn h
    have hrun := h
    cases h with
    | next h1 h2 =>
      rename_i d1 m
      obtain ⟨a1, a2, a3, a4, a5, a6⟩ := ih d1 (by omega) h1
      obtain ⟨m', d', b1, b2, b3, b4, b5, b6, b7⟩ := C102_round d1 a1 a2 (rounds := rounds) (by omega)
      obtain ⟨rfl, rfl⟩ := b1.unique h2
      refine ⟨b7 (ho _ _ hn hrun), b2, by omega, by omega, b5.trans a5, fun z hz => ?_⟩
      obtain ⟨c1, c2⟩ := a6 z hz
      exact ⟨(b6 z c1).1, (b6 z c1).2.trans c2⟩

/-- **The loop** does what the rounds do: it ends after a round whose longest side was not longer than the
bound, or it is still going on after `N` rounds; it never leaves the vectors. -/
theorem C102_loop {strict : Prop} (bound : K) : ∀ (N : ℕ) (d : Delaunay K) (_ : BoundaryMarked strict d)
    (_ : d.elements ≠ []) {rounds : ℕ} (_ : 2 * (d.elements.length + 2 * N) + 8 ≤ rounds)
    (_ : ∀ n d1, n ≤ N → FineRun rounds n d d1 → Oriented (placeOf d1.nodes) d1.elements),
    (∃ n d1 m d', n < N ∧ FineRun rounds n d d1 ∧ FineRound rounds d1 m d' ∧ longer m.1 bound = false ∧
      d.makefinemesh rounds bound N = some d' ∧ BoundaryMarked strict d1 ∧ BoundaryMarked strict d' ∧
      total2 (placeOf d'.nodes) d'.elements = total2 (placeOf d.nodes) d.elements) ∨
    (d.makefinemesh rounds bound N = none ∧ ∀ n d1 m d', n < N → FineRun rounds n d d1 → FineRound rounds d1 m d' →
      longer m.1 bound = true) := by
  intro N
  induction N with
  | zero => exact fun d _ _ _ _ _ => Or.inr ⟨rfl, fun n _ _ _ hn => absurd hn (by omega)⟩
  | succ N ih =>
    intro d hd hne rounds hr ho
    obtain ⟨m, d', b1, b2, b3, -, b5, -, b7⟩ := C102_round d hd hne (rounds := rounds) (by omega)
    have hd' := b7 (ho 1 d' (by omega) (.next (.start d) b1))
    obtain ⟨c1, x1, c2, c3⟩ := id b1
    have hloop : d.makefinemesh rounds bound (N + 1) =
        if longer m.1 bound then d'.makefinemesh rounds bound N else some d' := by
      conv_lhs => unfold Delaunay.makefinemesh
      simp only [bind, Option.bind, c1, c2, c3, pure]
    rw [hloop]
    by_cases hlo : longer m.1 bound = true
    · rw [if_pos hlo]
      rcases ih d' hd' b2 (rounds := rounds) (by omega) (fun n d1 hn h1 => ho (n + 1) d1 (by omega) (h1.cons b1)) with
        ⟨n, d1, m1, d2, e1, e2, e3, e4, e5, e6, e7, e8⟩ | ⟨e1, e2⟩
      · exact Or.inl ⟨n + 1, d1, m1, d2, by omega, e2.cons b1, e3, e4, e5, e6, e7, e8.trans b5⟩
      · refine Or.inr ⟨e1, ?_⟩
        intro n d1 m1 d2 hn h1 h2
        rcases h1.split b1 with ⟨rfl, rfl⟩ | ⟨k, rfl, h3⟩
        · rw [h2.1] at c1
          cases c1
          exact hlo
        · exact e2 k d1 m1 d2 (by omega) h3 h2
    · rw [if_neg hlo]
      exact Or.inl ⟨0, d, m, d', by omega, .start d, b1, by simpa using hlo, rfl, hd, hd', b5⟩

/-! ### Cases -/

/-- A finite check of `BoundaryMarked`. -/
def CheckMesh (d : Delaunay K) : Prop :=
  (∀ (t : Fin d.elements.length) (i : Fin 3), d.elements[t].neighbors i = -1 ∨
    ∃ (u : Fin d.elements.length) (j : Fin 3), d.elements[t].neighbors i = (u : ℕ) ∧
      d.elements[u].neighbors j = (t : ℕ) ∧ d.elements[u].nodes (j + 1) = d.elements[t].nodes (i + 2) ∧
      d.elements[u].nodes (j + 2) = d.elements[t].nodes (i + 1)) ∧
  (∀ e ∈ d.elements, 0 < area2 (placeOf d.nodes) e ∧ e.active = true ∧
    ∀ i : Fin 3, (0 ≤ e.nodes i ∧ e.nodes i < d.nodes.length) ∧ (e.neighbors i = -1 ↔ e.sides i = true) ∧
      (e.sides i = true → ((atInt d.nodes (e.nodes (i + 1))).map DNode.isonboundary) = some true ∧
        ((atInt d.nodes (e.nodes (i + 2))).map DNode.isonboundary) = some true)) ∧
  ∀ i : Fin d.nodes.length, d.nodes[i].isonboundary = false →
    ∃ t : Fin d.elements.length, ∃ k : Fin 3, d.elements[t].nodes k = (i : ℕ)

instance (d : Delaunay ℚ) : Decidable (CheckMesh d) := by
  unfold CheckMesh
  infer_instance

theorem CheckMesh.marked {d : Delaunay K} (h : CheckMesh d) : BoundaryMarked True d := by
  obtain ⟨h1, h2, h3⟩ := h
  have fl : ∀ z : ℤ, ((atInt d.nodes z).map DNode.isonboundary) = some true → Flagged d.nodes z := by
    intro z hz
    rw [Option.map_eq_some_iff] at hz
    exact hz
  refine ⟨⟨?_, fun e he => (h2 e he).1, fun e he i => ((h2 e he).2.2 i).1, fun e he => (h2 e he).2.1⟩,
    fun e he i => (((h2 e he).2.2 i).2.1).1, fun _ e he i => (((h2 e he).2.2 i).2.1).2, ?_, ?_⟩
  · intro t e he i
    have ht := lt_of_some he
    have het : d.elements[t] = e := Option.some.inj ((List.getElem?_eq_getElem ht).symm.trans he)
    rcases h1 ⟨t, ht⟩ i with h | ⟨u, j, a1, a2, a3, a4⟩
    · exact Or.inl (by rw [← het]; exact h)
    · simp only [Fin.getElem_fin, het] at a1 a2 a3 a4
      exact Or.inr ⟨u, j, e, d.elements[(u : ℕ)], he, List.getElem?_eq_getElem u.2, a1, a2, a3, a4⟩
  · exact fun e he i hs => ⟨fl _ (((h2 e he).2.2 i).2.2 hs).1, fl _ (((h2 e he).2.2 i).2.2 hs).2⟩
  · intro i p hp hb
    have hi := lt_of_some hp
    have hip : d.nodes[i] = p := Option.some.inj ((List.getElem?_eq_getElem hi).symm.trans hp)
    obtain ⟨t, k, hk⟩ := h3 ⟨i, hi⟩ (by simp only [Fin.getElem_fin, hip]; exact hb)
    exact ⟨_, List.getElem_mem t.2, k, hk⟩

/-- A pentagon in three elements. -/
def pentagon : Delaunay ℚ :=
  ⟨[(5, 4), (-1, 6), (-2, 6), (2, -6), (6, -2)].map fun x => ⟨x, true, true⟩,
    [⟨![0, 1, 2], ![-1, 1, -1], ![true, false, true], true, true⟩,
     ⟨![0, 2, 3], ![-1, 2, 0], ![true, false, false], true, true⟩,
     ⟨![0, 3, 4], ![-1, -1, 1], ![true, true, false], true, true⟩]⟩

theorem pentagon_marked : BoundaryMarked True pentagon := CheckMesh.marked (by decide +kernel)

/-- The inner side of the first element. -/
example : ∃ d', pentagon.refine 14 0 1 = some d' ∧ BoundaryMarked True d' ∧
    (d'.nodes[5]?.map fun p => p.isonboundary) = some false := by
  obtain ⟨d', h1, h2, -, h4, -⟩ := C102_refine pentagon pentagon_marked (t := 0) rfl 1 (rounds := 14) (by decide)
  exact ⟨d', h1, h2, by rw [h4]; rfl⟩

/-- An outer side. -/
example : ∃ d', pentagon.refine 14 1 0 = some d' ∧ BoundaryMarked True d' ∧
    (d'.nodes[5]?.map fun p => p.isonboundary) = some true := by
  obtain ⟨d', h1, h2, -, h4, -⟩ := C102_refine pentagon pentagon_marked (t := 1) rfl 0 (rounds := 14) (by decide)
  exact ⟨d', h1, h2, by rw [h4]; rfl⟩

example : ([2, 3] : List ℤ) ∈ pentagon.generateEdges := by
  rw [C102_edges pentagon pentagon_marked]
  exact ⟨_, List.mem_cons_of_mem _ (List.mem_cons_self), 0, rfl, rfl⟩

/-- The rounds as a function. -/
def fineIter (rounds : ℕ) : ℕ → Delaunay K → Option (Delaunay K)
  | 0, d => some d
  | n + 1, d => (fineIter rounds n d).bind fun d => (longest d).bind fun m =>
    (d.refine rounds m.2.1 m.2.2).bind fun d1 => d1.laplacesmoothing rounds

theorem FineRun.iter {rounds n : ℕ} {d d1 : Delaunay K} (h : FineRun rounds n d d1) : fineIter rounds n d = some d1 := by
  induction h with
  | start => rfl
  | next _ h2 ih =>
    obtain ⟨c1, x1, c2, c3⟩ := h2
    rw [fineIter, ih, Option.bind_some, c1, Option.bind_some, c2, Option.bind_some, c3]

/-- No smoothing in two rounds turns an element over. -/
theorem pentagon_run : ∀ n d1, n ≤ 2 → FineRun 22 n pentagon d1 → Oriented (placeOf d1.nodes) d1.elements := by
  have check : ∀ n : ℕ, n < 3 → ((fineIter 22 n pentagon).map fun d1 =>
      decide (∀ e ∈ d1.elements, 0 < area2 (placeOf d1.nodes) e)) = some true := by decide +kernel
  intro n d1 hn h
  have hc := check n (by omega)
  rw [h.iter, Option.map_some, Option.some.injEq, decide_eq_true_eq] at hc
  exact hc

example : ∃ d', pentagon.makefinemesh 22 (13 / 2) 2 = some d' ∧ BoundaryMarked True d' ∧
    total2 (placeOf d'.nodes) d'.elements = total2 (placeOf pentagon.nodes) pentagon.elements := by
  rcases C102_loop (13 / 2) 2 pentagon pentagon_marked (by decide) (rounds := 22) (by decide) pentagon_run with
    ⟨n, d1, m, d', -, -, -, -, h5, -, h7, h8⟩ | ⟨h, -⟩
  · exact ⟨d', h5, h7, h8⟩
  · exfalso
    have : (pentagon.makefinemesh 22 (13 / 2) 2).isSome = true := by decide +kernel
    rw [h] at this
    cases this

example (d1 : Delaunay ℚ) (h : FineRun 22 2 pentagon d1) : d1.nodes.length = 7 ∧ BoundaryMarked True d1 := by
  have := C102_fine pentagon pentagon_marked (by decide) (N := 2) (by decide) pentagon_run 2 d1 le_rfl h
  exact ⟨this.2.2.2.1, this.1⟩

end Pansfem
