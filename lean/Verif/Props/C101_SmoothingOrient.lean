/-
C101: Laplacian smoothing and the orientation of the elements (Delaunay.h:706-732).

"The smoothing of a triangulation with counterclockwise elements leaves counterclockwise elements" is false:
where the polygon around a node is not convex, the mean of its corners may lie outside of it.  It holds for
a node whose neighbours all lie on the inner side of every opposite side, not all of them on that side.
-/
import Verif.Props.C100_Smoothing

namespace Pansfem

set_option linter.unusedSectionVars false

variable {K : Type} [Field K] [LinearOrder K] [IsStrictOrderedRing K]

/-- The full claim fails. -/
theorem C101_false : ∃ (d d' : Delaunay ℚ) (rounds : ℕ), SmoothReady (placeOf d.nodes) d.nodes d.elements ∧
    d.laplacesmoothing rounds = some d' ∧ ¬Oriented (placeOf d'.nodes) d'.elements := by
  obtain ⟨d', h, -⟩ := C100_smoothing fanMesh fanMesh_ready (rounds := 4) (by decide)
  refine ⟨fanMesh, d', 4, fanMesh_ready, h, fun ho => ?_⟩
  have hn : ((fanMesh.laplacesmoothing 4).bind fun d => (d.elements[1]?).map
      fun e => decide (0 < area2 (placeOf d.nodes) e)) = some false := by decide +kernel
  rw [h, Option.bind_some] at hn
  rw [Option.map_eq_some_iff] at hn
  obtain ⟨e, he, hn⟩ := hn
  rw [decide_eq_false_iff_not] at hn
  exact hn (ho e (List.mem_of_getElem? he))

/-- The mean of values that are not negative and not all zero is positive. -/
theorem listMean_pos {l : List K} (h : ∀ x ∈ l, 0 ≤ x) (h' : ∃ x ∈ l, 0 < x) : 0 < l.sum / l.length := by
  obtain ⟨x, hx, hx0⟩ := h'
  have hlen : (0 : K) < l.length := by
    have := List.length_pos_of_mem hx
    exact_mod_cast this
  refine div_pos ?_ hlen
  exact lt_of_lt_of_le hx0 (List.single_le_sum h x hx)

/-- The signed area is affine in one corner. -/
theorem vecpro_mean (a b : K × K) (g : ℤ → K × K) {qs : List ℤ} (hq : qs ≠ []) :
    vecpro a b (meanOf (qs.map g)) = (qs.map fun z => vecpro a b (g z)).sum / qs.length := by
  have hlen : (qs.length : K) ≠ 0 := by
    have := List.length_pos_iff.2 hq
    exact_mod_cast this.ne'
  have hs : (qs.map fun z => vecpro a b (g z)).sum =
      (b.1 - a.1) * ((qs.map fun z => (g z).2).sum - qs.length * a.2) -
        (b.2 - a.2) * ((qs.map fun z => (g z).1).sum - qs.length * a.1) := by
    clear hq hlen
    induction qs with
    | nil => simp
    | cons z qs ih =>
      rw [List.map_cons, List.sum_cons, ih]
      simp only [List.map_cons, List.sum_cons, List.length_cons, vecpro]
      push_cast
      ring
  rw [hs, meanOf]
  simp only [vecpro, List.map_map, List.length_map, Function.comp_def]
  field_simp

/-- The crossed side of an element of the walk ends where the next element begins. -/
theorem RingAround.next {pos0 : ℤ → K × K} {els : List DTri} (hl : Linked els) (ho : Oriented pos0 els) {q : ℤ}
    {ts : List ℕ} {qs : List ℤ} (hr : RingAround els q ts qs) {n t : ℕ} (ht : ts[n]? = some t) :
    ∃ e ∈ els, ∃ k, e.nodes k = q ∧ qs[n]? = some (e.nodes (k + 1)) ∧
      qs[(n + 1) % ts.length]? = some (e.nodes (k + 2)) := by
  obtain ⟨e, k, a1, a2, a3, t', a4, a5⟩ := hr.step n t ht
  obtain ⟨f, k', b1, b2, b3, -⟩ := hr.step _ t' a4
  refine ⟨e, List.mem_of_getElem? a1, k, a2, a3, ?_⟩
  rcases hl t e a1 (k + 1) with h | ⟨u, j, h⟩
  · rw [h] at a5; omega
  have hu : u = t' := by
    have := h.left a1
    rw [a5] at this
    exact_mod_cast this.symm
  subst hu
  obtain ⟨e1, f1, c1, c2, -, -, c5, c6⟩ := h
  rw [a1] at c1
  rw [b1] at c2
  cases c1; cases c2
  rw [fin3_12] at c5
  rw [fin3_11] at c6
  have hj : j + 1 = k' := nodes_inj (ho.at b1) (c5.trans (a2.trans b2.symm))
  subst hj
  rw [b3, fin3_11, c6]

/-- Points on a line through two different points. -/
theorem vecpro_line {a b p q : K × K} (hab : a ≠ b) (hp : vecpro a b p = 0) (hq : vecpro a b q = 0) :
    vecpro a p q = 0 := by
  unfold vecpro at *
  by_cases h1 : b.1 - a.1 = 0
  · have h2 : b.2 - a.2 ≠ 0 := fun h2 => hab (Prod.ext (by linear_combination -h1) (by linear_combination -h2))
    have : (b.2 - a.2) * ((p.1 - a.1) * (q.2 - a.2) - (p.2 - a.2) * (q.1 - a.1)) = 0 := by
      linear_combination (-(q.2 - a.2)) * hp + (p.2 - a.2) * hq
    exact (mul_eq_zero.1 this).resolve_left h2
  · have : (b.1 - a.1) * ((p.1 - a.1) * (q.2 - a.2) - (p.2 - a.2) * (q.1 - a.1)) = 0 := by
      linear_combination (p.1 - a.1) * hq - (q.1 - a.1) * hp
    exact (mul_eq_zero.1 this).resolve_left h1

/-- The area of a closed polygon does not depend on the point from which it is seen. -/
theorem polygon_area (x y : K × K) (s : ℕ → K × K) (m : ℕ) (hs : s m = s 0) :
    ∑ n ∈ Finset.range m, vecpro x (s n) (s (n + 1)) = ∑ n ∈ Finset.range m, vecpro y (s n) (s (n + 1)) := by
  rw [← sub_eq_zero, ← Finset.sum_sub_distrib]
  have h : ∀ n ∈ Finset.range m, vecpro x (s n) (s (n + 1)) - vecpro y (s n) (s (n + 1)) =
      ((x.2 - y.2) * (s (n + 1)).1 - (x.1 - y.1) * (s (n + 1)).2) - ((x.2 - y.2) * (s n).1 - (x.1 - y.1) * (s n).2) := by
    intro n _
    unfold vecpro
    ring
  rw [Finset.sum_congr rfl h, Finset.sum_range_sub fun n => (x.2 - y.2) * (s n).1 - (x.1 - y.1) * (s n).2, hs, sub_self]

/-- Not all nodes around a node lie on one line. -/
theorem ring_strict {pos : ℤ → K × K} {els : List DTri} (hl : Linked els) (ho : Oriented pos els) {q : ℤ}
    {ts : List ℕ} {qs : List ℤ} (hr : RingAround els q ts qs) {a b : K × K} (hab : a ≠ b)
    (h : ∀ z ∈ qs, 0 ≤ vecpro a b (pos z)) : ∃ z ∈ qs, 0 < vecpro a b (pos z) := by
  by_contra hn
  push Not at hn
  have hz : ∀ z ∈ qs, vecpro a b (pos z) = 0 := fun z hz => le_antisymm (hn z hz) (h z hz)
  have hm : 0 < ts.length := List.length_pos_iff.2 hr.nonempty
  set s : ℕ → K × K := fun n : ℕ => pos ((qs[n % ts.length]?).getD 0) with hsdef
  have hclosed : s ts.length = s 0 := by simp [hsdef]
  have hline : ∀ n, vecpro a b (s n) = 0 := by
    intro n
    have hlt : n % ts.length < qs.length := by rw [hr.length_eq]; exact Nat.mod_lt _ hm
    simp only [hsdef]
    rw [List.getElem?_eq_getElem hlt, Option.getD_some]
    exact hz _ (List.getElem_mem hlt)
  have hpos : ∀ n ∈ Finset.range ts.length, 0 < vecpro (pos q) (s n) (s (n + 1)) := by
    intro n hn
    rw [Finset.mem_range] at hn
    obtain ⟨e, he, k, h1, h2, h3⟩ := hr.next hl ho (List.getElem?_eq_getElem hn)
    have hA := ho e he
    rw [area2_rot pos e k, h1] at hA
    simp only [hsdef]
    rwa [Nat.mod_eq_of_lt hn, h2, h3]
  have h1 := Finset.sum_pos hpos ⟨0, Finset.mem_range.2 hm⟩
  rw [polygon_area (pos q) a s _ hclosed, Finset.sum_eq_zero fun n _ => vecpro_line hab (hline n) (hline (n + 1))] at h1
  exact lt_irrefl _ h1

/-- One node: the elements stay counterclockwise if its neighbours lie on the inner side of every side
opposite to it, that is, if the polygon around it is convex.  Missing for the full claim: polygons around a
node that are not convex, where it fails. -/
theorem C101_node_partial {pos0 : ℤ → K × K} (nodes : List (DNode K)) (els : List DTri)
    (h : SmoothReady pos0 nodes els) (ho : Oriented (placeOf nodes) els) {rounds : ℕ}
    (hr : els.length ≤ rounds) {i : ℕ} {p : DNode K} (hp : nodes[i]? = some p) (hb : p.isonboundary = false)
    (hconv : ∀ e ∈ els, ∀ k, e.nodes k = i → ∀ e' ∈ els, ∀ k', e'.nodes k' = i →
      0 ≤ vecpro (placeOf nodes (e.nodes (k + 1))) (placeOf nodes (e.nodes (k + 2)))
        (placeOf nodes (e'.nodes (k' + 1)))) :
    ∃ nodes', smoothNode rounds els nodes i = some nodes' ∧ Oriented (placeOf nodes') els := by
  obtain ⟨ts, qs, r1, r2, r3⟩ := smoothNode_spec h.linked h.oriented h.indices hp hb (h.inner hp hb)
    (h.used i p hp hb) hr
  refine ⟨_, r3, fun e he => ?_⟩
  have hlt : i < nodes.length := (List.getElem?_eq_some_iff.1 hp).1
  have hqs : qs ≠ [] := by
    intro hq
    have := r1.length_eq
    rw [hq] at this
    exact r1.nonempty (List.eq_nil_of_length_eq_zero this.symm)
  by_cases hk : ∃ k, e.nodes k = i
  · obtain ⟨k, hk⟩ := hk
    have n1 : e.nodes (k + 1) ≠ i := fun h' => by
      have := nodes_inj (ho e he) (h'.trans hk.symm)
      simp at this
    have n2 : e.nodes (k + 2) ≠ i := fun h' => by
      have := nodes_inj (ho e he) (h'.trans hk.symm)
      simp at this
    have c1 : ∀ z ∈ qs, 0 ≤ vecpro (placeOf nodes (e.nodes (k + 1))) (placeOf nodes (e.nodes (k + 2)))
        (placeOf nodes z) := by
      intro z hz
      obtain ⟨n, hn⟩ := List.mem_iff_getElem?.1 hz
      have hnt : n < ts.length := by rw [← r1.length_eq]; exact (List.getElem?_eq_some_iff.1 hn).1
      obtain ⟨e', he', k', b1, b2, -⟩ := r1.next h.linked h.oriented (List.getElem?_eq_getElem hnt)
      rw [hn] at b2
      cases b2
      exact hconv e he k hk e' he' k' b1
    have hab : placeOf nodes (e.nodes (k + 1)) ≠ placeOf nodes (e.nodes (k + 2)) := by
      intro hab
      have hA := ho e he
      rw [area2_rot _ e k, hab] at hA
      simp [vecpro, mul_comm] at hA
    have c2 := ring_strict h.linked ho r1 hab c1
    rw [area2_rot _ e k, hk, placeOf_nat (List.getElem?_set_self hlt), placeOf_set_ne n1, placeOf_set_ne n2,
      vecpro_rot, vecpro_mean _ _ _ hqs]
    have := listMean_pos (l := qs.map fun z => vecpro (placeOf nodes (e.nodes (k + 1))) (placeOf nodes (e.nodes (k + 2)))
      (placeOf nodes z)) (by simpa using c1) (by simpa using c2)
    rwa [List.length_map] at this
  · push Not at hk
    have : area2 (placeOf (nodes.set i { p with x := meanOf (qs.map (placeOf nodes)) })) e =
        area2 (placeOf nodes) e := by
      rw [area2, area2, placeOf_set_ne (hk 0), placeOf_set_ne (hk 1), placeOf_set_ne (hk 2)]
    rw [this]
    exact ho e he

/-- A node in a quadrilateral, not in its middle. -/
def convexFan : Delaunay ℚ :=
  ⟨⟨(0, 0), true, false⟩ :: [(-1, 0), (0, -1), (5, 0), (0, 5)].map fun x => ⟨x, true, true⟩,
    fanMesh.elements⟩

theorem convexFan_oriented : Oriented (placeOf convexFan.nodes) convexFan.elements := by
  have : ∀ t : ℕ, t < 4 → ((convexFan.elements[t]?).map fun e => decide (0 < area2 (placeOf convexFan.nodes) e)) =
      some true := by decide +kernel
  refine forall_mem fun s e he => ?_
  have h := this s (lt_of_some he)
  rw [he] at h
  simpa using h

theorem convexFan_ready : SmoothReady (placeOf convexFan.nodes) convexFan.nodes convexFan.elements := by
  have h := fanMesh_ready.congr (nodes' := convexFan.nodes) ⟨rfl, by
    intro i p hp
    have : ∀ i : ℕ, i < 5 → ((convexFan.nodes[i]?).map fun p => (p.isset, p.isonboundary)) =
        (fanMesh.nodes[i]?).map fun p => (p.isset, p.isonboundary) := by decide +kernel
    have h := this i (lt_of_some hp)
    rw [hp, Option.map_some, Option.map_eq_some_iff] at h
    obtain ⟨p', h1, h2⟩ := h
    exact ⟨p', h1, (Prod.mk.inj h2).1, (Prod.mk.inj h2).2⟩⟩
  exact ⟨h.linked, convexFan_oriented, h.indices, h.used, h.outer⟩

example : ∃ nodes', smoothNode 4 convexFan.elements convexFan.nodes 0 = some nodes' ∧
    Oriented (placeOf nodes') convexFan.elements := by
  refine C101_node_partial _ _ convexFan_ready convexFan_oriented (by decide) (i := 0) rfl rfl ?_
  have : ∀ t : ℕ, t < 4 → ∀ t' : ℕ, t' < 4 → ((convexFan.elements[t]?).bind fun e => (convexFan.elements[t']?).map
      fun e' => decide (∀ k k' : Fin 3, e.nodes k = (0 : ℤ) → e'.nodes k' = (0 : ℤ) →
        0 ≤ vecpro (placeOf convexFan.nodes (e.nodes (k + 1))) (placeOf convexFan.nodes (e.nodes (k + 2)))
        (placeOf convexFan.nodes (e'.nodes (k' + 1))))) = some true := by decide +kernel
  intro e me k hk e' me' k' hk'
  obtain ⟨s, he⟩ := List.mem_iff_getElem?.1 me
  obtain ⟨s', he'⟩ := List.mem_iff_getElem?.1 me'
  have h := this s (lt_of_some he) s' (lt_of_some he')
  rw [he, he', Option.bind_some, Option.map_some, Option.some.injEq, decide_eq_true_eq] at h
  exact h k k' hk hk'

end Pansfem
