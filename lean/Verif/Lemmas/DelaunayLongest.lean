/-
The search for the longest side (Delaunay.h:686-696).
-/
import Verif.Lemmas.DelaunayInsert

namespace Pansfem

set_option linter.unusedSectionVars false

variable {K : Type} [Field K] [LinearOrder K] [IsStrictOrderedRing K]

/-- The squared length of the side `k`. -/
def sideSq (nodes : List (DNode K)) (e : DTri) (k : Fin 3) : K :=
  distSq (placeOf nodes (e.nodes (k + 1))) (placeOf nodes (e.nodes (k + 2)))

/-- What the search has found after some sides: no side so far is longer, and it is the length of its side
unless nothing was found yet. -/
structure Found (nodes : List (DNode K)) (els : List DTri) (seen : ℕ → Fin 3 → Prop) (m : K × ℕ × Fin 3) : Prop where
  nonneg : 0 ≤ m.1
  most : ∀ (t : ℕ) (e : DTri) (k : Fin 3), els[t]? = some e → seen t k → e.active = true → sideSq nodes e k ≤ m.1
  hit : m = (0, 0, 0) ∨ ∃ e, els[m.2.1]? = some e ∧ seen m.2.1 m.2.2 ∧ e.active = true ∧ m.1 = sideSq nodes e m.2.2

theorem Found.mono {nodes : List (DNode K)} {els : List DTri} {seen seen' : ℕ → Fin 3 → Prop} {m : K × ℕ × Fin 3}
    (h : Found nodes els seen m) (hs : ∀ t k, t < els.length → (seen t k ↔ seen' t k)) : Found nodes els seen' m where
  nonneg := h.nonneg
  most := fun t e k he hk ha => h.most t e k he ((hs t k (lt_of_some he)).2 hk) ha
  hit := h.hit.imp id fun ⟨e, h1, h2, h3⟩ => ⟨e, h1, (hs _ _ (lt_of_some h1)).1 h2, h3⟩

theorem found_step {nodes : List (DNode K)} {els : List DTri} {seen : ℕ → Fin 3 → Prop} {m : K × ℕ × Fin 3}
    (h : Found nodes els seen m) {t : ℕ} {e : DTri} (he : els[t]? = some e) (k : Fin 3) :
    Found nodes els (fun s i => seen s i ∨ (s = t ∧ i = k))
      (if m.1 < sideSq nodes e k ∧ e.active = true then (sideSq nodes e k, t, k) else m) := by
  split_ifs with hc
  · refine ⟨h.nonneg.trans hc.1.le, fun s g i hg hs ha => ?_, Or.inr ⟨e, he, Or.inr ⟨rfl, rfl⟩, hc.2, rfl⟩⟩
    rcases hs with hs | ⟨rfl, rfl⟩
    · exact (h.most s g i hg hs ha).trans hc.1.le
    · rw [he] at hg
      cases hg
      exact le_rfl
  · refine ⟨h.nonneg, fun s g i hg hs ha => ?_, h.hit.imp id fun ⟨g, h1, h2, h3⟩ => ⟨g, h1, Or.inl h2, h3⟩⟩
    rcases hs with hs | ⟨rfl, rfl⟩
    · exact h.most s g i hg hs ha
    · rw [he] at hg
      cases hg
      exact not_lt.1 fun h => hc ⟨h, ha⟩

/-- One element. -/
theorem found_element {d : Delaunay K} {m : K × ℕ × Fin 3} {t : ℕ} {e : DTri}
    (h : Found d.nodes d.elements (fun s _ => s < t) m) (he : d.elements[t]? = some e)
    (hi : ∀ i, 0 ≤ e.nodes i ∧ e.nodes i < d.nodes.length) :
    ∃ m', ([0, 1, 2] : List (Fin 3)).foldlM (longestStep d t) m = some m' ∧
      Found d.nodes d.elements (fun s _ => s < t + 1) m' := by
  have step : ∀ (m : K × ℕ × Fin 3) (k : Fin 3), longestStep d t m k =
      some (if m.1 < sideSq d.nodes e k ∧ e.active = true then (sideSq d.nodes e k, t, k) else m) := by
    intro m k
    obtain ⟨a, ha, ha'⟩ := atInt_some (nodes := d.nodes) (hi (k + 1)).1 (hi (k + 1)).2
    obtain ⟨b, hb, hb'⟩ := atInt_some (nodes := d.nodes) (hi (k + 2)).1 (hi (k + 2)).2
    unfold longestStep sideSq
    rw [he]
    simp only [bind, Option.bind, ha, hb, pure, ha', hb']
  simp only [List.foldlM_cons, List.foldlM_nil, step, bind, Option.bind, pure]
  refine ⟨_, rfl, (found_step (found_step (found_step h he 0) he 1) he 2).mono fun s i _ => ?_⟩
  have : i = 0 ∨ i = 1 ∨ i = 2 := by revert i; decide
  constructor
  · omega
  · intro hs
    by_cases hst : s = t
    · tauto
    · have : s < t := by omega
      tauto

/-- **The longest side**: the search succeeds, no side of an active element is longer, and the result is a
side of an existing element if there is an active element at all. -/
theorem longest_spec {d : Delaunay K} (hi : ∀ e ∈ d.elements, ∀ i, 0 ≤ e.nodes i ∧ e.nodes i < d.nodes.length) :
    ∃ m, longest d = some m ∧ Found d.nodes d.elements (fun _ _ => True) m := by
  have key : ∀ n, n ≤ d.elements.length → ∃ m, (List.range n).foldlM (fun (m : K × ℕ × Fin 3) (t : ℕ) =>
      [0, 1, 2].foldlM (longestStep d t) m) (0, 0, 0) = some m ∧ Found d.nodes d.elements (fun s _ => s < n) m := by
    intro n
    induction n with
    | zero => exact fun _ => ⟨(0, 0, 0), rfl, le_rfl, fun t e k _ h => absurd h (by omega), Or.inl rfl⟩
    | succ n ih =>
      intro hn
      obtain ⟨m, h1, h2⟩ := ih (by omega)
      have he : d.elements[n]? = some d.elements[n] := List.getElem?_eq_getElem hn
      obtain ⟨m', h3, h4⟩ := found_element h2 he (hi _ (List.getElem_mem hn))
      refine ⟨m', ?_, h4⟩
      rw [List.range_succ, List.foldlM_append, h1]
      show ([n].foldlM (fun (m : K × ℕ × Fin 3) (t : ℕ) => [0, 1, 2].foldlM (longestStep d t) m) m) = _
      rw [List.foldlM_cons, h3]
      rfl
  obtain ⟨m, h1, h2⟩ := key _ le_rfl
  exact ⟨m, h1, h2.mono fun t k ht => iff_of_true ht trivial⟩

end Pansfem
