/-
The smoothing of all nodes.
-/
import Verif.Lemmas.DelaunaySmooth

namespace Pansfem

set_option linter.unusedSectionVars false

variable {K : Type} [Field K] [LinearOrder K] [IsStrictOrderedRing K]

/-- What the smoothing needs: symmetric neighbours, elements that were counterclockwise at some places
`pos0`, existing nodes, every node that may move is a corner of an element, and the ends of the outer sides
do not move. -/
structure SmoothReady (pos0 : ℤ → K × K) (nodes : List (DNode K)) (els : List DTri) : Prop where
  linked : Linked els
  oriented : Oriented pos0 els
  indices : ∀ e ∈ els, ∀ i, 0 ≤ e.nodes i ∧ e.nodes i < nodes.length
  used : ∀ (i : ℕ) (p : DNode K), nodes[i]? = some p → p.isonboundary = false →
    ∃ (t : ℕ) (e : DTri) (k : Fin 3), els[t]? = some e ∧ e.nodes k = (i : ℤ)
  outer : ∀ (t : ℕ) (e : DTri) (i : Fin 3), els[t]? = some e → e.neighbors i = -1 →
    (∃ p, atInt nodes (e.nodes (i + 1)) = some p ∧ p.isonboundary = true) ∧
    ∃ p, atInt nodes (e.nodes (i + 2)) = some p ∧ p.isonboundary = true

/-- The same nodes, maybe at other places. -/
def SameFlags (nodes nodes' : List (DNode K)) : Prop :=
  nodes'.length = nodes.length ∧ ∀ (i : ℕ) (p : DNode K), nodes[i]? = some p →
    ∃ p', nodes'[i]? = some p' ∧ p'.isset = p.isset ∧ p'.isonboundary = p.isonboundary

theorem SameFlags.back {nodes nodes' : List (DNode K)} (h : SameFlags nodes nodes') {i : ℕ} {p' : DNode K}
    (hp : nodes'[i]? = some p') :
    ∃ p, nodes[i]? = some p ∧ p'.isset = p.isset ∧ p'.isonboundary = p.isonboundary := by
  have hlt : i < nodes.length := by rw [← h.1]; exact (List.getElem?_eq_some_iff.1 hp).1
  obtain ⟨q, h1, h2, h3⟩ := h.2 i _ (List.getElem?_eq_getElem hlt)
  rw [hp] at h1
  cases h1
  exact ⟨_, List.getElem?_eq_getElem hlt, h2, h3⟩

theorem SmoothReady.congr {pos0 : ℤ → K × K} {nodes nodes' : List (DNode K)} {els : List DTri}
    (h : SmoothReady pos0 nodes els) (hs : SameFlags nodes nodes') : SmoothReady pos0 nodes' els where
  linked := h.linked
  oriented := h.oriented
  indices := by rw [hs.1]; exact h.indices
  used := by
    intro i p' hp hb
    obtain ⟨p, h1, -, h3⟩ := hs.back hp
    exact h.used i p h1 (by rw [← h3, hb])
  outer := by
    have key : ∀ z : ℤ, (∃ p, atInt nodes z = some p ∧ p.isonboundary = true) →
        ∃ p, atInt nodes' z = some p ∧ p.isonboundary = true := by
      rintro z ⟨p, h1, h2⟩
      unfold atInt at h1 ⊢
      split_ifs at h1 with hz
      obtain ⟨p', a1, -, a3⟩ := hs.2 _ _ h1
      rw [if_neg hz]
      exact ⟨p', a1, by rw [a3, h2]⟩
    intro t e i he hn
    obtain ⟨h1, h2⟩ := h.outer t e i he hn
    exact ⟨key _ h1, key _ h2⟩

theorem SmoothReady.inner {pos0 : ℤ → K × K} {nodes : List (DNode K)} {els : List DTri}
    (h : SmoothReady pos0 nodes els) {i : ℕ} {p : DNode K} (hp : nodes[i]? = some p)
    (hb : p.isonboundary = false) : InnerNode els i := by
  have key : (∃ p, atInt nodes (i : ℤ) = some p ∧ p.isonboundary = true) → False := by
    rintro ⟨q, h1, h2⟩
    rw [atInt, if_neg (by omega), Int.toNat_natCast, hp] at h1
    cases h1
    rw [hb] at h2
    cases h2
  intro t e k he hn
  obtain ⟨h1, h2⟩ := h.outer t e k he hn
  exact ⟨fun hq => key (hq ▸ h1), fun hq => key (hq ▸ h2)⟩

theorem placeOf_nat {nodes : List (DNode K)} {i : ℕ} {p : DNode K} (h : nodes[i]? = some p) :
    placeOf nodes i = p.x := by
  rw [placeOf, atInt, if_neg (by omega), Int.toNat_natCast, h]

theorem placeOf_set_ne {nodes : List (DNode K)} {i : ℕ} {z : ℤ} {p : DNode K} (h : z ≠ i) :
    placeOf (nodes.set i p) z = placeOf nodes z := by
  rw [placeOf, placeOf, atInt_set_ne h]

/-- Some rounds of the loop over the nodes. -/
theorem smooth_prefix {pos0 : ℤ → K × K} {nodes : List (DNode K)} {els : List DTri}
    (h : SmoothReady pos0 nodes els) {rounds : ℕ} (hr : els.length ≤ rounds) (n : ℕ)
    (hn : n ≤ nodes.length) :
    ∃ nodes', (List.range n).foldlM (fun nodes i => smoothNode rounds els nodes i) nodes = some nodes' ∧
      SameFlags nodes nodes' ∧
      (∀ (i : ℕ) (p : DNode K), nodes[i]? = some p → p.isonboundary = true ∨ n ≤ i → nodes'[i]? = some p) ∧
      ∀ (i : ℕ) (p : DNode K), nodes[i]? = some p → p.isonboundary = false → i < n →
        ∃ ts qs, RingAround els i ts qs ∧ (∀ z ∈ qs, z ≠ i ∧ 0 ≤ z ∧ z < nodes.length) ∧
          placeOf nodes' i =
            meanOf (qs.map fun z : ℤ => if z < i then placeOf nodes' z else placeOf nodes z) := by
  induction n with
  | zero => exact ⟨nodes, rfl, ⟨rfl, fun i p hp => ⟨p, hp, rfl, rfl⟩⟩, fun i p hp _ => hp, fun _ _ _ _ h => absurd h (by omega)⟩
  | succ n ih =>
    obtain ⟨nd, a1, a2, a3, a4⟩ := ih (by omega)
    rw [List.range_succ, List.foldlM_append, a1, Option.bind_eq_bind, Option.bind_some, List.foldlM_cons]
    have hlt : n < nodes.length := by omega
    obtain ⟨p, hp⟩ : ∃ p, nodes[n]? = some p := ⟨_, List.getElem?_eq_getElem hlt⟩
    have hp' := a3 n p hp (Or.inr le_rfl)
    by_cases hb : p.isonboundary = true
    · have hsm : smoothNode rounds els nd n = some nd := by
        unfold smoothNode
        simp only [hp', bind, Option.bind, hb, if_true, pure]
      rw [hsm, Option.bind_eq_bind, Option.bind_some]
      refine ⟨nd, rfl, a2, ?_, ?_⟩
      · intro i q hq hor
        exact a3 i q hq (hor.imp id fun h => by omega)
      · intro i q hq hqb hi
        have : i ≠ n := by
          rintro rfl
          rw [hp] at hq
          cases hq
          rw [hb] at hqb
          cases hqb
        exact a4 i q hq hqb (by omega)
    · rw [Bool.not_eq_true] at hb
      have hready := h.congr a2
      obtain ⟨ts, qs, r1, r2, r3⟩ := smoothNode_spec h.linked h.oriented hready.indices hp' hb
        (h.inner hp hb) (h.used n p hp hb) hr
      have hlt' : n < nd.length := by rw [a2.1]; exact hlt
      rw [r3, Option.bind_eq_bind, Option.bind_some]
      refine ⟨_, rfl, ⟨by rw [List.length_set, a2.1], ?_⟩, ?_, ?_⟩
      · intro i q hq
        by_cases hin : n = i
        · subst hin
          rw [hp] at hq
          cases hq
          exact ⟨_, List.getElem?_set_self hlt', rfl, rfl⟩
        · rw [List.getElem?_set_ne hin]
          exact a2.2 i q hq
      · intro i q hq hor
        have hin : n ≠ i := by
          rintro rfl
          rw [hp] at hq
          cases hq
          rcases hor with h | h
          · rw [hb] at h; cases h
          · omega
        rw [List.getElem?_set_ne hin]
        exact a3 i q hq (hor.imp id fun h => by omega)
      · intro i q hq hqb hi
        by_cases hin : i = n
        · subst hin
          refine ⟨ts, qs, r1, by rw [← a2.1]; exact r2, ?_⟩
          rw [placeOf_nat (List.getElem?_set_self hlt')]
          refine congrArg meanOf (List.map_congr_left fun z hz => ?_)
          obtain ⟨z1, z2, z3⟩ := r2 z hz
          split_ifs with hzi
          · rw [placeOf_set_ne z1]
          · obtain ⟨m, rfl⟩ : ∃ m : ℕ, z = m := ⟨z.toNat, by omega⟩
            have hm : m < nodes.length := by rw [a2.1] at z3; omega
            have hmn := List.getElem?_eq_getElem hm
            rw [placeOf_nat hmn, placeOf_nat (a3 m _ hmn (Or.inr (by omega)))]
        · obtain ⟨ts', qs', b1, b2, b3⟩ := a4 i q hq hqb (by omega)
          refine ⟨ts', qs', b1, b2, ?_⟩
          rw [placeOf_set_ne (by omega), b3]
          refine congrArg meanOf (List.map_congr_left fun z hz => ?_)
          split_ifs with hzi
          · rw [placeOf_set_ne (by omega)]
          · rfl

end Pansfem
