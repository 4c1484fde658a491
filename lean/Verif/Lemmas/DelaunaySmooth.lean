/-
The area of a triangulation is a sum over its outer sides, and the walk around a node.
-/
import Verif.Lemmas.DelaunaySteps
import Mathlib.Algebra.BigOperators.Fin
import Mathlib.Algebra.BigOperators.Ring.Finset
import Mathlib.Data.Fintype.BigOperators
import Mathlib.Dynamics.PeriodicPts.Defs
import Mathlib.Dynamics.PeriodicPts.Lemmas

namespace Pansfem

set_option linter.unusedSectionVars false

variable {K : Type} [Field K] [LinearOrder K] [IsStrictOrderedRing K]

/-- The part of a side in the area. -/
def sidePart (pos : ℤ → K × K) (els : List DTri) (p : ℕ × Fin 3) : K :=
  match els[p.1]? with
  | some e => (pos (e.nodes (p.2 + 1))).1 * (pos (e.nodes (p.2 + 2))).2 -
      (pos (e.nodes (p.2 + 1))).2 * (pos (e.nodes (p.2 + 2))).1
  | none => 0

theorem areaAt_sides (pos : ℤ → K × K) (els : List DTri) (t : ℕ) :
    areaAt pos els t = ∑ i : Fin 3, sidePart pos els (t, i) := by
  unfold areaAt sidePart
  simp only
  cases els[t]? with
  | none => simp
  | some e =>
    have h : (2 : Fin 3) + 1 = 0 ∧ (1 : Fin 3) + 2 = 0 ∧ (1 : Fin 3) + 1 = 2 ∧ (2 : Fin 3) + 2 = 1 := by
      decide
    simp only [Option.map_some, Option.getD_some, Fin.sum_univ_three, area2, vecpro, h, zero_add]
    ring

/-- All sides. -/
def allSides (els : List DTri) : Finset (ℕ × Fin 3) := Finset.range els.length ×ˢ Finset.univ

theorem total2_sides (pos : ℤ → K × K) (els : List DTri) :
    total2 pos els = ∑ p ∈ allSides els, sidePart pos els p := by
  rw [total2_range, allSides, Finset.sum_product]
  exact Finset.sum_congr rfl fun t _ => areaAt_sides pos els t

/-- A side without a neighbour. -/
def OuterSide (els : List DTri) (p : ℕ × Fin 3) : Prop := ∃ e, els[p.1]? = some e ∧ e.neighbors p.2 = -1

/-- The same side, seen from the neighbour. -/
def partner (els : List DTri) (p : ℕ × Fin 3) : ℕ × Fin 3 :=
  match els[p.1]? with
  | some e =>
    match els[(e.neighbors p.2).toNat]? with
    | some f => ((e.neighbors p.2).toNat, (f.oppositenode p.1).getD 0)
    | none => p
  | none => p

theorem partner_eq {pos0 : ℤ → K × K} {els : List DTri} (hl : Linked els) (ho : Oriented pos0 els)
    {t i u j} (h : Glued els t i u j) : partner els (t, i) = (u, j) := by
  have h' := h
  obtain ⟨e, f, h1, h2, h3, h4, -⟩ := h
  unfold partner
  simp only [h1, h3, Int.toNat_natCast, h2]
  rw [oppositenode_eq h4 fun i hi => h'.unique hl ho h2 hi]
  rfl

theorem glued_of_inner {els : List DTri} (hl : Linked els) {p : ℕ × Fin 3} (hp : p ∈ allSides els)
    (hn : ¬OuterSide els p) : ∃ u j, Glued els p.1 p.2 u j := by
  rw [allSides, Finset.mem_product, Finset.mem_range] at hp
  have he := List.getElem?_eq_getElem hp.1
  rcases hl p.1 _ he p.2 with h | h
  · exact absurd ⟨_, he, h⟩ hn
  · exact h

theorem Glued.inner {els : List DTri} {t i u j} (h : Glued els t i u j) : ¬OuterSide els (t, i) := by
  rintro ⟨e, he, hn⟩
  rw [h.left he] at hn
  omega

theorem Glued.mem {els : List DTri} {t i u j} (h : Glued els t i u j) : (t, i) ∈ allSides els := by
  obtain ⟨e, f, h1, -⟩ := h
  rw [allSides, Finset.mem_product, Finset.mem_range]
  exact ⟨lt_of_some h1, Finset.mem_univ _⟩

/-- The inner sides cancel. -/
theorem total2_outer {pos0 : ℤ → K × K} {els : List DTri} (hl : Linked els) (ho : Oriented pos0 els)
    (pos : ℤ → K × K) [DecidablePred (OuterSide els)] :
    total2 pos els = ∑ p ∈ (allSides els).filter (OuterSide els), sidePart pos els p := by
  rw [total2_sides, ← Finset.sum_filter_add_sum_filter_not (allSides els) (OuterSide els), add_eq_left]
  have key : ∀ p ∈ (allSides els).filter fun p => ¬OuterSide els p, ∃ u j, Glued els p.1 p.2 u j := by
    intro p hp
    rw [Finset.mem_filter] at hp
    exact glued_of_inner hl hp.1 hp.2
  refine Finset.sum_involution (fun p _ => partner els p) ?_ ?_ ?_ ?_
  · intro p hp
    obtain ⟨u, j, h⟩ := key p hp
    rw [show p = (p.1, p.2) from rfl, partner_eq hl ho h]
    obtain ⟨e, f, h1, h2, -, -, h5, h6⟩ := h
    simp only [sidePart, h1, h2, h5, h6]
    ring
  · intro p hp _
    obtain ⟨u, j, h⟩ := key p hp
    rw [show p = (p.1, p.2) from rfl, partner_eq hl ho h]
    intro he
    exact h.ne ho (Prod.mk.inj he).1.symm
  · intro p hp
    obtain ⟨u, j, h⟩ := key p hp
    have : partner els p = (u, j) := partner_eq hl ho h
    rw [this, Finset.mem_filter]
    exact ⟨h.symm.mem, h.symm.inner⟩
  · intro p hp
    obtain ⟨u, j, h⟩ := key p hp
    have : partner els p = (u, j) := partner_eq hl ho h
    rw [this, partner_eq hl ho h.symm]

/-- The area depends on the places of the nodes at outer sides only. -/
theorem total2_places {pos0 pos pos' : ℤ → K × K} {els : List DTri} (hl : Linked els)
    (ho : Oriented pos0 els)
    (h : ∀ (t : ℕ) (e : DTri) i, els[t]? = some e → e.neighbors i = -1 →
      pos' (e.nodes (i + 1)) = pos (e.nodes (i + 1)) ∧ pos' (e.nodes (i + 2)) = pos (e.nodes (i + 2))) :
    total2 pos' els = total2 pos els := by
  classical
  rw [total2_outer hl ho, total2_outer hl ho]
  refine Finset.sum_congr rfl fun p hp => ?_
  rw [Finset.mem_filter] at hp
  obtain ⟨e, he, hn⟩ := hp.2
  obtain ⟨h1, h2⟩ := h p.1 e p.2 he hn
  simp only [sidePart, he, h1, h2]

/-! ### The walk around a node -/

/-- The elements with the node `q`. -/
def Star (els : List DTri) (q : ℤ) : Finset ℕ :=
  (Finset.range els.length).filter fun t => ∃ e ∈ els[t]?, ∃ k, e.nodes k = q

/-- No outer side touches the node `q`. -/
def InnerNode (els : List DTri) (q : ℤ) : Prop :=
  ∀ (t : ℕ) (e : DTri) i, els[t]? = some e → e.neighbors i = -1 → e.nodes (i + 1) ≠ q ∧ e.nodes (i + 2) ≠ q

theorem nodeorder_eq {pos0 : ℤ → K × K} {e : DTri} (ho : 0 < area2 pos0 e) {q : ℤ} {k : Fin 3}
    (h : e.nodes k = q) : e.nodeorder q = some k := by
  have hu : ∀ k', e.nodes k' = q → k' = k := fun k' h' => nodes_inj ho (h'.trans h.symm)
  unfold DTri.nodeorder
  by_cases h0 : e.nodes 0 = q
  · rw [if_pos h0, hu 0 h0]
  rw [if_neg h0]
  by_cases h1 : e.nodes 1 = q
  · rw [if_pos h1, hu 1 h1]
  rw [if_neg h1]
  by_cases h2 : e.nodes 2 = q
  · rw [if_pos h2, hu 2 h2]
  · exact absurd h (fin3 (P := fun k => ¬e.nodes k = q) 0 h0 h1 h2 k)

/-- The step of the walk. -/
theorem walk_step {pos0 : ℤ → K × K} {els : List DTri} (hl : Linked els) (ho : Oriented pos0 els) {q : ℤ}
    (hi : InnerNode els q) {t : ℕ} {e : DTri} (he : els[t]? = some e) {k : Fin 3} (hk : e.nodes k = q) :
    ∃ (u : ℕ) (f : DTri) (j : Fin 3), els[u]? = some f ∧ e.neighbors (k + 1) = u ∧ Glued els t (k + 1) u j ∧ f.nodes (j + 1) = q := by
  rcases hl t e he (k + 1) with h | ⟨u, j, h⟩
  · exact absurd hk (by simpa using (hi t e (k + 1) he h).2)
  · have h' := h
    obtain ⟨e1, f, h1, h2, h3, h4, h5, h6⟩ := h
    rw [he] at h1
    cases h1
    exact ⟨u, f, j, h2, h3, h', by rw [h5, fin3_12, hk]⟩

/-- The walk as a function on element numbers. -/
def walkNext (els : List DTri) (q : ℤ) (t : ℕ) : ℕ :=
  match els[t]? with
  | some e => (e.neighbors (match e.nodeorder q with | some i => i + 1 | none => 0)).toNat
  | none => t

theorem mem_star {els : List DTri} {q : ℤ} {t : ℕ} : t ∈ Star els q ↔ ∃ e, els[t]? = some e ∧ ∃ k, e.nodes k = q := by
  rw [Star, Finset.mem_filter, Finset.mem_range]
  constructor
  · rintro ⟨-, e, he, k, hk⟩
    exact ⟨e, he, k, hk⟩
  · rintro ⟨e, he, k, hk⟩
    exact ⟨lt_of_some he, e, he, k, hk⟩

theorem walkNext_eq {pos0 : ℤ → K × K} {els : List DTri} (hl : Linked els) (ho : Oriented pos0 els) {q : ℤ}
    (hi : InnerNode els q) {t : ℕ} (ht : t ∈ Star els q) :
    walkNext els q t ∈ Star els q ∧ ∃ e k j, els[t]? = some e ∧ e.nodes k = q ∧ e.nodeorder q = some k ∧
      e.neighbors (k + 1) = walkNext els q t ∧ Glued els t (k + 1) (walkNext els q t) j ∧
      ∃ f, els[walkNext els q t]? = some f ∧ f.nodes (j + 1) = q := by
  obtain ⟨e, he, k, hk⟩ := mem_star.1 ht
  obtain ⟨u, f, j, h1, h2, h3, h4⟩ := walk_step hl ho hi he hk
  have hno := nodeorder_eq (ho.at he) hk
  have hw : walkNext els q t = u := by
    rw [walkNext, he]
    simp only [hno, h2, Int.toNat_natCast]
  rw [hw]
  exact ⟨mem_star.2 ⟨f, h1, j + 1, h4⟩, e, k, j, he, hk, hno, h2, h3, f, h1, h4⟩

theorem walkNext_inj {pos0 : ℤ → K × K} {els : List DTri} (hl : Linked els) (ho : Oriented pos0 els) {q : ℤ}
    (hi : InnerNode els q) {t t' : ℕ} (ht : t ∈ Star els q) (ht' : t' ∈ Star els q)
    (h : walkNext els q t = walkNext els q t') : t = t' := by
  obtain ⟨-, e, k, j, -, -, -, -, a5, f, a6, a7⟩ := walkNext_eq hl ho hi ht
  obtain ⟨-, e', k', j', -, -, -, -, b5, f', b6, b7⟩ := walkNext_eq hl ho hi ht'
  rw [h] at a5 a6
  rw [a6] at b6
  cases b6
  have hj : j + 1 = j' + 1 := nodes_inj (ho.at a6) (a7.trans b7.symm)
  rw [add_right_cancel_iff] at hj
  subst hj
  have h1 := a5.right a6
  have h2 := b5.right a6
  rw [h1] at h2
  exact_mod_cast h2

/-- The walk on the elements around a node. -/
def starNext {pos0 : ℤ → K × K} {els : List DTri} (hl : Linked els) (ho : Oriented pos0 els) {q : ℤ}
    (hi : InnerNode els q) (t : {t // t ∈ Star els q}) : {t // t ∈ Star els q} :=
  ⟨walkNext els q t.1, (walkNext_eq hl ho hi t.2).1⟩

theorem starNext_iterate {pos0 : ℤ → K × K} {els : List DTri} (hl : Linked els) (ho : Oriented pos0 els)
    {q : ℤ} (hi : InnerNode els q) (t : {t // t ∈ Star els q}) (n : ℕ) :
    ((starNext hl ho hi)^[n] t).1 = (walkNext els q)^[n] t.1 := by
  induction n with
  | zero => rfl
  | succ n ih => rw [Function.iterate_succ_apply', Function.iterate_succ_apply', ← ih]; rfl

theorem around_step {pos0 : ℤ → K × K} {els : List DTri} (hl : Linked els) (ho : Oriented pos0 els) {q : ℤ}
    (hi : InnerNode els q) (start : ℕ) {t : ℕ} (ht : t ∈ Star els q) (n : ℕ) :
    around els q start (n + 1) t =
      if walkNext els q t = start then some [t]
      else (around els q start n (walkNext els q t : ℕ)).map fun l => t :: l := by
  obtain ⟨hm, e, k, j, a1, a2, a3, a4, a5, -⟩ := walkNext_eq hl ho hi ht
  have hat : atInt els (t : ℤ) = some e := by
    rw [atInt, if_neg (by omega), Int.toNat_natCast, a1]
  conv_lhs => unfold around
  rw [hat]
  simp only [bind, Option.bind, a3, a4, Int.toNat_natCast, pure, Nat.cast_inj]
  split_ifs
  · rfl
  · cases around els q start n (walkNext els q t) <;> rfl

/-- The walk from an element at an inner node comes back and passes distinct elements. -/
theorem around_spec {pos0 : ℤ → K × K} {els : List DTri} (hl : Linked els) (ho : Oriented pos0 els) {q : ℤ}
    (hi : InnerNode els q) {start : ℕ} (hs : start ∈ Star els q) {rounds : ℕ} (hr : els.length ≤ rounds) :
    ∃ m : ℕ, 0 < m ∧ (walkNext els q)^[m] start = start ∧
      around els q start rounds start = some ((List.range m).map fun n : ℕ => (walkNext els q)^[n] start) ∧
      ((List.range m).map fun n : ℕ => (walkNext els q)^[n] start).Nodup ∧
      ∀ n, (walkNext els q)^[n] start ∈ Star els q := by
  classical
  set w := starNext hl ho hi with hw
  set x : {t // t ∈ Star els q} := ⟨start, hs⟩ with hx
  have hinj : Function.Injective w := by
    intro a b h
    exact Subtype.ext (walkNext_inj hl ho hi a.2 b.2 (congrArg Subtype.val h))
  have hit : ∀ n, (w^[n] x).1 = (walkNext els q)^[n] start := starNext_iterate hl ho hi x
  have hper : x ∈ Function.periodicPts w := hinj.mem_periodicPts x
  have hpos : 0 < Function.minimalPeriod w x := Function.minimalPeriod_pos_of_mem_periodicPts hper
  have hmin : ∀ n, 0 < n → n < Function.minimalPeriod w x → (walkNext els q)^[n] start ≠ start := by
    intro n h0 h1 h
    have : Function.IsPeriodicPt w n x := Subtype.ext ((hit n).trans h)
    exact absurd (this.minimalPeriod_le h0) (by omega)
  have hback : (walkNext els q)^[Function.minimalPeriod w x] start = start := by
    rw [← hit]
    exact congrArg Subtype.val (Function.isPeriodicPt_minimalPeriod w x)
  have hmem : ∀ n, (walkNext els q)^[n] start ∈ Star els q := fun n => hit n ▸ (w^[n] x).2
  have hnd : ((List.range (Function.minimalPeriod w x)).map
      fun n : ℕ => (walkNext els q)^[n] start).Nodup := by
    refine List.Nodup.map_on ?_ List.nodup_range
    intro a ha b hb h
    rw [List.mem_range] at ha hb
    exact Function.iterate_injOn_Iio_minimalPeriod ha hb (Subtype.ext ((hit a).trans (h.trans (hit b).symm)))
  have hcard : Function.minimalPeriod w x ≤ els.length := by
    have h1 := List.toFinset_card_of_nodup hnd
    have h2 : ((List.range (Function.minimalPeriod w x)).map
        fun n : ℕ => (walkNext els q)^[n] start).toFinset ⊆ Finset.range els.length := by
      intro t ht
      rw [List.mem_toFinset, List.mem_map] at ht
      obtain ⟨n, -, rfl⟩ := ht
      exact (Finset.mem_filter.1 (hmem n)).1
    have h3 := Finset.card_le_card h2
    rw [h1, List.length_map, List.length_range, Finset.card_range] at h3
    exact h3
  have walk : ∀ (r i fuel : ℕ), i + (r + 1) = Function.minimalPeriod w x → r + 1 ≤ fuel →
      around els q start fuel ((walkNext els q)^[i] start : ℕ) =
        some ((List.range' i (r + 1)).map fun n : ℕ => (walkNext els q)^[n] start) := by
    intro r
    induction r with
    | zero =>
      intro i fuel h1 h2
      obtain ⟨fuel, rfl⟩ : ∃ f, fuel = f + 1 := ⟨fuel - 1, by omega⟩
      rw [around_step hl ho hi start (hmem i), ← Function.iterate_succ_apply' (walkNext els q) i start,
        show i.succ = Function.minimalPeriod w x from h1, if_pos hback]
      rfl
    | succ r ih =>
      intro i fuel h1 h2
      obtain ⟨fuel, rfl⟩ : ∃ f, fuel = f + 1 := ⟨fuel - 1, by omega⟩
      rw [around_step hl ho hi start (hmem i), ← Function.iterate_succ_apply' (walkNext els q) i start,
        if_neg (hmin (i + 1) (by omega) (by omega)), ih (i + 1) fuel (by omega) (by omega)]
      rfl
  refine ⟨_, hpos, hback, ?_, hnd, hmem⟩
  have h := walk (Function.minimalPeriod w x - 1) 0 rounds (by omega) (by omega)
  rw [show Function.minimalPeriod w x - 1 + 1 = Function.minimalPeriod w x by omega] at h
  rw [List.range_eq_range']
  exact h

/-- `ts` are the elements around the node `q` in the order of the walk, `qs` the other ends of the sides
that are crossed. -/
structure RingAround (els : List DTri) (q : ℤ) (ts : List ℕ) (qs : List ℤ) : Prop where
  nonempty : ts ≠ []
  nodup : ts.Nodup
  length_eq : qs.length = ts.length
  step : ∀ n t, ts[n]? = some t → ∃ e k, els[t]? = some e ∧ e.nodes k = q ∧ qs[n]? = some (e.nodes (k + 1)) ∧
    ∃ t', ts[(n + 1) % ts.length]? = some t' ∧ e.neighbors (k + 1) = (t' : ℤ)

/-- The node after `q` in an element. -/
def nextNode (els : List DTri) (q : ℤ) (t : ℕ) : ℤ :=
  match els[t]? with
  | some e => e.nodes (match e.nodeorder q with | some k => k + 1 | none => 0)
  | none => 0

theorem around_ring {pos0 : ℤ → K × K} {els : List DTri} (hl : Linked els) (ho : Oriented pos0 els) {q : ℤ}
    (hi : InnerNode els q) {start : ℕ} (hs : start ∈ Star els q) {rounds : ℕ} (hr : els.length ≤ rounds) :
    ∃ ts, around els q start rounds start = some ts ∧ RingAround els q ts (ts.map (nextNode els q)) ∧
      ∀ t ∈ ts, t ∈ Star els q := by
  obtain ⟨m, h0, h1, h2, h3, h4⟩ := around_spec hl ho hi hs hr
  refine ⟨_, h2, ⟨?_, h3, by simp, ?_⟩, ?_⟩
  · intro h
    have := congrArg List.length h
    simp at this
    omega
  · intro n t ht
    rw [List.getElem?_map, Option.map_eq_some_iff] at ht
    obtain ⟨n', hn, rfl⟩ := ht
    obtain ⟨hn1, hn2⟩ := List.getElem?_eq_some_iff.1 hn
    rw [List.length_range] at hn1
    rw [List.getElem_range] at hn2
    subst hn2
    obtain ⟨-, e, k, j, a1, a2, a3, a4, -, -⟩ := walkNext_eq hl ho hi (h4 n)
    refine ⟨e, k, a1, a2, ?_, _, ?_, a4⟩
    · rw [List.getElem?_map, List.getElem?_map, List.getElem?_range hn1]
      simp only [Option.map_some, nextNode, a1, a3]
    · rw [List.length_map, List.length_range, List.getElem?_map,
        List.getElem?_range (Nat.mod_lt _ h0), Option.map_some,
        ← Function.iterate_succ_apply' (walkNext els q) n start]
      congr 1
      rcases Nat.lt_or_ge (n + 1) m with hlt | hge
      · rw [Nat.mod_eq_of_lt hlt]
      · have : n + 1 = m := by omega
        rw [this, Nat.mod_self, show n.succ = m from this, h1]
        rfl
  · intro t ht
    rw [List.mem_map] at ht
    obtain ⟨n, -, rfl⟩ := ht
    exact h4 n

/-- The mean of some places. -/
def meanOf (l : List (K × K)) : K × K := ((l.map Prod.fst).sum / l.length, (l.map Prod.snd).sum / l.length)

theorem atInt_set_ne {α : Type} {l : List α} {i : ℕ} {z : ℤ} {a : α} (h : z ≠ i) :
    atInt (l.set i a) z = atInt l z := by
  unfold atInt
  split_ifs with hz
  · rfl
  · rw [List.getElem?_set_ne]
    omega

theorem atInt_placeOf {nodes : List (DNode K)} {z : ℤ} (h0 : 0 ≤ z) (h1 : z < nodes.length) :
    ∃ p, atInt nodes z = some p ∧ placeOf nodes z = p.x := by
  have h : z.toNat < nodes.length := by omega
  refine ⟨nodes[z.toNat], ?_, ?_⟩
  · rw [atInt, if_neg (by omega), List.getElem?_eq_getElem h]
  · rw [placeOf, atInt, if_neg (by omega), List.getElem?_eq_getElem h]

theorem find_start {pos0 : ℤ → K × K} {els : List DTri} (ho : Oriented pos0 els) {q : ℤ}
    (h : ∃ (t : ℕ) (e : DTri) (k : Fin 3), els[t]? = some e ∧ e.nodes k = q) :
    ∃ j : ℕ, (List.range els.length).find? (fun j : ℕ => ∃ e ∈ els[j]?, e.nodeorder q ≠ none) = some j ∧
      j ∈ Star els q := by
  have hsome : ((List.range els.length).find?
      (fun j : ℕ => ∃ e ∈ els[j]?, e.nodeorder q ≠ none)).isSome := by
    rw [List.find?_isSome]
    obtain ⟨t, e, k, h1, h2⟩ := h
    refine ⟨t, List.mem_range.2 (lt_of_some h1), ?_⟩
    rw [decide_eq_true_eq]
    exact ⟨e, h1, by rw [nodeorder_eq (ho.at h1) h2]; simp⟩
  obtain ⟨j, hj⟩ := Option.isSome_iff_exists.1 hsome
  refine ⟨j, hj, ?_⟩
  have := List.find?_some hj
  rw [decide_eq_true_eq] at this
  obtain ⟨e, h1, h2⟩ := this
  refine mem_star.2 ⟨e, h1, ?_⟩
  unfold DTri.nodeorder at h2
  split_ifs at h2 with a b c
  · exact ⟨0, a⟩
  · exact ⟨1, b⟩
  · exact ⟨2, c⟩
  · exact absurd rfl h2

/-- One node: it moves to the mean of the nodes around it. -/
theorem smoothNode_spec {pos0 : ℤ → K × K} {els : List DTri} (hl : Linked els) (ho : Oriented pos0 els)
    {nodes : List (DNode K)} (hx : ∀ e ∈ els, ∀ i, 0 ≤ e.nodes i ∧ e.nodes i < nodes.length)
    {i : ℕ} {p : DNode K} (hp : nodes[i]? = some p) (hb : p.isonboundary = false)
    (hi : InnerNode els i) (hu : ∃ (t : ℕ) (e : DTri) (k : Fin 3), els[t]? = some e ∧ e.nodes k = (i : ℤ))
    {rounds : ℕ} (hr : els.length ≤ rounds) :
    ∃ ts qs, RingAround els i ts qs ∧ (∀ z ∈ qs, z ≠ i ∧ 0 ≤ z ∧ z < nodes.length) ∧
      smoothNode rounds els nodes i =
        some (nodes.set i { p with x := meanOf (qs.map (placeOf nodes)) }) := by
  obtain ⟨px, ps, pb⟩ := p
  simp only at hb
  subst hb
  obtain ⟨start, hs1, hs2⟩ := find_start ho hu
  obtain ⟨ts, ht1, ht2, ht3⟩ := around_ring hl ho hi hs2 hr
  have hlen : i < nodes.length := (List.getElem?_eq_some_iff.1 hp).1
  have hnext : ∀ t ∈ ts, nextNode els i t ≠ i ∧ 0 ≤ nextNode els i t ∧ nextNode els i t < nodes.length := by
    intro t ht
    obtain ⟨e, h1, k, h2⟩ := mem_star.1 (ht3 t ht)
    have h3 : nextNode els i t = e.nodes (k + 1) := by
      simp only [nextNode, h1, nodeorder_eq (ho.at h1) h2]
    rw [h3]
    refine ⟨?_, hx e (List.mem_of_getElem? h1) _⟩
    intro h
    have := nodes_inj (ho.at h1) (h.trans h2.symm)
    simp at this
  refine ⟨ts, _, ht2, ?_, ?_⟩
  · intro z hz
    obtain ⟨t, ht, rfl⟩ := List.mem_map.1 hz
    exact hnext t ht
  have hfold : ∀ (l : List ℕ) (acc : K × K), (∀ t ∈ l, t ∈ ts) →
      l.foldlM (smoothAdd els i) (nodes.set i ⟨acc, ps, false⟩) =
      some (nodes.set i ⟨(acc.1 + ((l.map (nextNode els i)).map fun z => (placeOf nodes z).1).sum,
        acc.2 + ((l.map (nextNode els i)).map fun z => (placeOf nodes z).2).sum), ps, false⟩) := by
    intro l
    induction l with
    | nil => intro acc _; simp
    | cons t l ih =>
      intro acc hsub
      obtain ⟨e, h1, k, h2⟩ := mem_star.1 (ht3 t (hsub t (by simp)))
      have hno := nodeorder_eq (ho.at h1) h2
      have h3 : nextNode els i t = e.nodes (k + 1) := by
        simp only [nextNode, h1, hno]
      obtain ⟨b1, b2, b3⟩ := hnext t (hsub t (by simp))
      obtain ⟨a, c1, c2⟩ := atInt_placeOf b2 b3
      rw [h3] at b1 c1 c2
      have hone : smoothAdd els i (nodes.set i ⟨acc, ps, false⟩) t =
          some (nodes.set i ⟨(acc.1 + a.x.1, acc.2 + a.x.2), ps, false⟩) := by
        unfold smoothAdd
        simp only [h1, hno, bind, Option.bind, atInt_set_ne b1, c1, List.getElem?_set_self hlen,
          List.set_set, pure]
      rw [List.foldlM_cons, hone, Option.bind_eq_bind, Option.bind_some,
        ih (acc.1 + a.x.1, acc.2 + a.x.2) fun t ht => hsub t (by simp [ht])]
      simp only [List.map_cons, List.sum_cons, h3, c2, add_assoc]
  unfold smoothNode
  have hf := hfold ts (0, 0) fun _ h => h
  simp only [hp, bind, Option.bind, hs1, ht1, pure, hf, List.getElem?_set_self hlen, List.set_set]
  simp only [Bool.false_eq_true, if_false, meanOf, List.map_map, List.length_map, zero_add, Function.comp_def]

end Pansfem
