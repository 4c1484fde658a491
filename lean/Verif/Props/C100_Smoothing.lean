/-
C100: Laplacian smoothing (Delaunay.h:706-732).

On a triangulation with symmetric neighbours whose outer sides end in nodes on the boundary, the smoothing
ends, moves no node on the boundary and changes no element.  Every other node goes to the mean of the nodes
around it, where nodes with smaller numbers have moved already.  The total area stays the same, and no node
leaves a half-plane that contains all nodes.
-/
import Verif.Lemmas.DelaunaySmooth2

namespace Pansfem

set_option linter.unusedSectionVars false

variable {K : Type} [Field K] [LinearOrder K] [IsStrictOrderedRing K]

theorem C100_smoothing {pos0 : ℤ → K × K} (d : Delaunay K) (h : SmoothReady pos0 d.nodes d.elements)
    {rounds : ℕ} (hr : d.elements.length ≤ rounds) :
    ∃ d', d.laplacesmoothing rounds = some d' ∧ d'.elements = d.elements ∧ SameFlags d.nodes d'.nodes ∧
      (∀ (i : ℕ) (p : DNode K), d.nodes[i]? = some p → p.isonboundary = true → d'.nodes[i]? = some p) ∧
      (∀ (i : ℕ) (p : DNode K), d.nodes[i]? = some p → p.isonboundary = false →
        ∃ ts qs, RingAround d.elements i ts qs ∧ placeOf d'.nodes i =
          meanOf (qs.map fun z : ℤ => if z < i then placeOf d'.nodes z else placeOf d.nodes z)) ∧
      SmoothReady pos0 d'.nodes d'.elements := by
  obtain ⟨nodes', h1, h2, h3, h4⟩ := smooth_prefix h hr d.nodes.length le_rfl
  refine ⟨⟨nodes', d.elements⟩, ?_, rfl, h2, fun i p hp hb => h3 i p hp (Or.inl hb), ?_, h.congr h2⟩
  · unfold Delaunay.laplacesmoothing
    rw [h1]
    rfl
  · intro i p hp hb
    obtain ⟨ts, qs, r1, -, r3⟩ := h4 i p hp hb (List.getElem?_eq_some_iff.1 hp).1
    exact ⟨ts, qs, r1, r3⟩

/-- The mean of values up to `c` is at most `c`. -/
theorem listMean_le {l : List K} (hl : l ≠ []) {c : K} (h : ∀ x ∈ l, x ≤ c) : l.sum / l.length ≤ c := by
  have hpos : (0 : K) < l.length := by
    have := List.length_pos_iff.2 hl
    exact_mod_cast this
  rw [div_le_iff₀ hpos]
  have := List.sum_le_card_nsmul l c h
  rw [nsmul_eq_mul, mul_comm] at this
  exact this

/-- The total area does not change. -/
theorem C100_area {pos0 : ℤ → K × K} (d : Delaunay K) (h : SmoothReady pos0 d.nodes d.elements)
    {rounds : ℕ} {d' : Delaunay K} (hr : d.elements.length ≤ rounds)
    (hd : d.laplacesmoothing rounds = some d') :
    total2 (placeOf d'.nodes) d'.elements = total2 (placeOf d.nodes) d.elements := by
  obtain ⟨d2, h1, h2, h3, h4, -⟩ := C100_smoothing d h hr
  rw [hd] at h1
  cases h1
  rw [h2]
  have key : ∀ z : ℤ, (∃ p, atInt d.nodes z = some p ∧ p.isonboundary = true) →
      placeOf d'.nodes z = placeOf d.nodes z := by
    rintro z ⟨p, hp, hb⟩
    have hz : ¬z < 0 := by
      intro hz
      rw [atInt, if_pos hz] at hp
      cases hp
    rw [atInt, if_neg hz] at hp
    rw [placeOf, placeOf, atInt, atInt, if_neg hz, if_neg hz, hp, h4 _ _ hp hb]
  refine total2_places h.linked h.oriented fun t e i he hn => ?_
  obtain ⟨o1, o2⟩ := h.outer t e i he hn
  exact ⟨key _ o1, key _ o2⟩

/-- No node leaves a half-plane that contains all nodes. -/
theorem C100_halfplane {pos0 : ℤ → K × K} (d : Delaunay K) (h : SmoothReady pos0 d.nodes d.elements)
    {rounds : ℕ} {d' : Delaunay K} (hr : d.elements.length ≤ rounds)
    (hd : d.laplacesmoothing rounds = some d') (a b c : K)
    (hin : ∀ p ∈ d.nodes, a * p.x.1 + b * p.x.2 ≤ c) : ∀ p ∈ d'.nodes, a * p.x.1 + b * p.x.2 ≤ c := by
  obtain ⟨nodes', h1, h2, h3, h4⟩ := smooth_prefix h hr d.nodes.length le_rfl
  have hd' : d' = ⟨nodes', d.elements⟩ := by
    unfold Delaunay.laplacesmoothing at hd
    rw [h1] at hd
    exact (Option.some.inj hd).symm
  subst hd'
  have main : ∀ n i : ℕ, i < n → i < d.nodes.length →
      a * (placeOf nodes' i).1 + b * (placeOf nodes' i).2 ≤ c := by
    intro n
    induction n with
    | zero => intro i hi; omega
    | succ n ih =>
      intro i hi hlt
      obtain ⟨p, hp⟩ : ∃ p, d.nodes[i]? = some p := ⟨_, List.getElem?_eq_getElem hlt⟩
      by_cases hb : p.isonboundary = true
      · rw [placeOf_nat (h3 i p hp (Or.inl hb))]
        exact hin p (List.mem_of_getElem? hp)
      · obtain ⟨ts, qs, r1, r2, r3⟩ := h4 i p hp (by simpa using hb) hlt
        have hne : qs ≠ [] := by
          intro hq
          have := r1.length_eq
          rw [hq] at this
          exact r1.nonempty (List.eq_nil_of_length_eq_zero this.symm)
        set g : ℤ → K × K := fun z : ℤ => if z < i then placeOf nodes' z else placeOf d.nodes z with hg
        have hall : ∀ z ∈ qs, a * (g z).1 + b * (g z).2 ≤ c := by
          intro z hz
          obtain ⟨z1, z2, z3⟩ := r2 z hz
          obtain ⟨m, rfl⟩ : ∃ m : ℕ, z = m := ⟨z.toNat, by omega⟩
          have hm : m < d.nodes.length := by omega
          simp only [hg]
          split_ifs with hmi
          · exact ih m (by omega) hm
          · have hmn := List.getElem?_eq_getElem hm
            rw [placeOf_nat hmn]
            exact hin _ (List.mem_of_getElem? hmn)
        have hm := listMean_le (l := qs.map fun z => a * (g z).1 + b * (g z).2) (by simpa using hne)
          (by simpa using hall)
        rw [r3, meanOf]
        rw [List.sum_map_add, List.sum_map_mul_left, List.sum_map_mul_left, List.length_map] at hm
        simp only [List.map_map, List.length_map, Function.comp_def]
        calc _ = (a * (qs.map fun z => (g z).1).sum + b * (qs.map fun z => (g z).2).sum) / qs.length := by ring
          _ ≤ c := hm
  intro p hp
  obtain ⟨i, hi⟩ := List.mem_iff_getElem?.1 hp
  have hlt : i < d.nodes.length := by
    rw [← h2.1]
    exact (List.getElem?_eq_some_iff.1 hi).1
  have := main (i + 1) i (by omega) hlt
  rw [placeOf_nat hi] at this
  exact this

/-- Any number of smoothings in a row (the constructor does ten, Delaunay.h:270-272). -/
theorem C100_rounds {pos0 : ℤ → K × K} {rounds : ℕ} (n : ℕ) : ∀ (d : Delaunay K),
    SmoothReady pos0 d.nodes d.elements → d.elements.length ≤ rounds →
    ∃ d', (List.range n).foldlM (fun d _ => Delaunay.laplacesmoothing rounds d) d = some d' ∧
      d'.elements = d.elements ∧ SameFlags d.nodes d'.nodes ∧
      (∀ (i : ℕ) (p : DNode K), d.nodes[i]? = some p → p.isonboundary = true → d'.nodes[i]? = some p) ∧
      total2 (placeOf d'.nodes) d'.elements = total2 (placeOf d.nodes) d.elements := by
  induction n with
  | zero =>
    intro d _ _
    exact ⟨d, rfl, rfl, ⟨rfl, fun i p hp => ⟨p, hp, rfl, rfl⟩⟩, fun i p hp _ => hp, rfl⟩
  | succ n ih =>
    intro d h hr
    obtain ⟨d1, a1, a2, a3, a4, a5⟩ := ih d h hr
    have hready : SmoothReady pos0 d1.nodes d1.elements := by
      rw [a2]; exact h.congr a3
    obtain ⟨d', b1, b2, b3, b4, -⟩ := C100_smoothing d1 hready (rounds := rounds) (by rw [a2]; exact hr)
    have harea := C100_area d1 hready (by rw [a2]; exact hr) b1
    refine ⟨d', ?_, b2.trans a2, ⟨b3.1.trans a3.1, ?_⟩, ?_, harea.trans a5⟩
    · rw [List.range_succ, List.foldlM_append, a1, Option.bind_eq_bind, Option.bind_some, List.foldlM_cons, b1]
      rfl
    · intro i p hp
      obtain ⟨p1, c1, c2, c3⟩ := a3.2 i p hp
      obtain ⟨p2, c4, c5, c6⟩ := b3.2 i p1 c1
      exact ⟨p2, c4, c5.trans c2, c6.trans c3⟩
    · intro i p hp hb
      exact b4 i p (a4 i p hp hb) hb

/-! ### A case -/

/-- A node off the boundary with four elements around it. -/
def fanMesh : Delaunay ℚ :=
  ⟨⟨(0, 0), true, false⟩ :: [(-1, 0), (4, -1), (1, 0), (4, 1)].map fun x => ⟨x, true, true⟩,
    [⟨![0, 1, 2], ![-1, 1, 3], ![true, false, false], true, true⟩,
     ⟨![0, 2, 3], ![-1, 2, 0], ![true, false, false], true, true⟩,
     ⟨![0, 3, 4], ![-1, 3, 1], ![true, false, false], true, true⟩,
     ⟨![0, 4, 1], ![-1, 0, 2], ![true, false, false], true, true⟩]⟩

theorem fanMesh_ready : SmoothReady (placeOf fanMesh.nodes) fanMesh.nodes fanMesh.elements where
  linked := by
    intro t e he i
    have ht : t < 4 := lt_of_some he
    have hall : ∀ t : ℕ, t < 4 → ∀ i : Fin 3, ((fanMesh.elements[t]?).map fun e => e.neighbors i) = some (-1) ∨
        ∃ u : ℕ, u < 4 ∧ ∃ j : Fin 3,
          ((fanMesh.elements[t]?).map fun e => (e.neighbors i, e.nodes (i + 1), e.nodes (i + 2), (t : ℤ))) =
          (fanMesh.elements[u]?).map fun f => ((u : ℤ), f.nodes (j + 2), f.nodes (j + 1), f.neighbors j) := by
      decide +kernel
    rcases hall t ht i with h | ⟨u, hu, j, h⟩
    · rw [he] at h
      exact Or.inl (by simpa using h)
    · obtain ⟨f, hf⟩ : ∃ f, fanMesh.elements[u]? = some f := ⟨_, List.getElem?_eq_getElem hu⟩
      rw [he, hf] at h
      simp only [Option.map_some, Option.some.injEq, Prod.mk.injEq] at h
      exact Or.inr ⟨u, j, e, f, he, hf, h.1, h.2.2.2.symm, h.2.2.1.symm, h.2.1.symm⟩
  oriented := by
    have : ∀ t : ℕ, t < 4 → ((fanMesh.elements[t]?).map fun e => decide (0 < area2 (placeOf fanMesh.nodes) e)) =
        some true := by decide +kernel
    refine forall_mem fun s e he => ?_
    have h := this s (lt_of_some he)
    rw [he] at h
    simpa [fanMesh] using h
  indices := by
    have : ∀ t : ℕ, t < 4 → ∀ i : Fin 3, ((fanMesh.elements[t]?).map fun e => decide (0 ≤ e.nodes i ∧ e.nodes i < 5)) =
        some true := by decide +kernel
    refine forall_mem fun s e he i => ?_
    have h := this s (lt_of_some he) i
    rw [he] at h
    simpa [fanMesh] using h
  used := by
    intro i p hp hb
    have hi : i < 5 := lt_of_some hp
    have : ∀ i : ℕ, i < 5 → ((fanMesh.nodes[i]?).map fun p => p.isonboundary) = some (decide (i ≠ 0)) := by decide +kernel
    have h := this i hi
    rw [hp, Option.map_some, hb, Option.some.injEq] at h
    have hi0 : i = 0 := by simpa using h.symm
    subst hi0
    exact ⟨0, _, 0, rfl, rfl⟩
  outer := by
    intro t e i he hn
    have : ∀ t : ℕ, t < 4 → ∀ i : Fin 3, ((fanMesh.elements[t]?).map fun e => decide (e.neighbors i = -1)) = some true →
        ((fanMesh.elements[t]?).bind fun e => (atInt fanMesh.nodes (e.nodes (i + 1))).map
          fun p => p.isonboundary) = some true ∧
        ((fanMesh.elements[t]?).bind fun e => (atInt fanMesh.nodes (e.nodes (i + 2))).map
          fun p => p.isonboundary) = some true := by decide +kernel
    have h := this t (lt_of_some he) i
    rw [he] at h
    simp only [Option.map_some, Option.some.injEq, decide_eq_true_eq, Option.bind_some,
      Option.map_eq_some_iff] at h
    exact h hn

example : ∃ d', fanMesh.laplacesmoothing 4 = some d' ∧ placeOf d'.nodes 0 = (2, 0) ∧
    total2 (placeOf d'.nodes) d'.elements = 4 := by
  obtain ⟨d', h, -⟩ := C100_smoothing fanMesh fanMesh_ready (rounds := 4) (by decide)
  have ha := C100_area fanMesh fanMesh_ready (by decide) h
  have h0 : total2 (placeOf fanMesh.nodes) fanMesh.elements = 4 := by decide +kernel
  have hp : ((fanMesh.laplacesmoothing 4).map fun d => placeOf d.nodes 0) = some (2, 0) := by decide +kernel
  rw [h, Option.map_some, Option.some.injEq] at hp
  exact ⟨d', h, hp, ha.trans h0⟩

example : ∀ d', fanMesh.laplacesmoothing 4 = some d' → ∀ p ∈ d'.nodes, (1 : ℚ) * p.x.1 + 0 * p.x.2 ≤ 4 :=
  fun _ h => C100_halfplane fanMesh fanMesh_ready (by decide) h 1 0 4 (by decide +kernel)

example : ∃ d', (List.range 10).foldlM (fun d _ => Delaunay.laplacesmoothing 4 d) fanMesh = some d' ∧
    d'.elements = fanMesh.elements := by
  obtain ⟨d', h, h', -⟩ := C100_rounds 10 fanMesh fanMesh_ready (rounds := 4) (by decide)
  exact ⟨d', h, h'⟩

end Pansfem
