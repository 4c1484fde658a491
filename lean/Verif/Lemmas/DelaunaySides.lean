/-
The marks of the sides on the boundary through insertions and swaps.
-/
import Verif.Props.C59_Delaunay

namespace Pansfem

set_option linter.unusedSectionVars false

variable {K : Type} [Field K] [LinearOrder K] [IsStrictOrderedRing K]

/-- One side: an outer side is marked, if `strict` then no other side is, and a marked side ends in nodes
with `F`. -/
def SideOK (F : ℤ → Prop) (strict : Prop) (e : DTri) (i : Fin 3) : Prop :=
  (e.neighbors i = -1 → e.sides i = true) ∧ (strict → e.sides i = true → e.neighbors i = -1) ∧
    (e.sides i = true → F (e.nodes (i + 1)) ∧ F (e.nodes (i + 2)))

/-- All sides. -/
def SidesOK (F : ℤ → Prop) (strict : Prop) (els : List DTri) : Prop := ∀ e ∈ els, ∀ i, SideOK F strict e i

/-- A node of an element. -/
def UsedNode (els : List DTri) (z : ℤ) : Prop := ∃ e ∈ els, ∃ k, e.nodes k = z

theorem SidesOK.mono {F G : ℤ → Prop} {strict : Prop} {els : List DTri} (h : SidesOK F strict els)
    (hFG : ∀ z, F z → G z) : SidesOK G strict els := fun e he i =>
  ⟨(h e he i).1, (h e he i).2.1, fun hs => ⟨hFG _ ((h e he i).2.2 hs).1, hFG _ ((h e he i).2.2 hs).2⟩⟩

/-- The same element, maybe with other existing neighbours. -/
def SameBut (e e' : DTri) : Prop :=
  e'.nodes = e.nodes ∧ e'.sides = e.sides ∧ ∀ i, e'.neighbors i = -1 ↔ e.neighbors i = -1

theorem SameBut.refl (e : DTri) : SameBut e e := ⟨rfl, rfl, fun _ => Iff.rfl⟩

theorem SameBut.trans {a b c : DTri} (h : SameBut a b) (h' : SameBut b c) : SameBut a c :=
  ⟨h'.1.trans h.1, h'.2.1.trans h.2.1, fun i => (h'.2.2 i).trans (h.2.2 i)⟩

/-- The same elements, maybe with other existing neighbours. -/
def Relinked (els els' : List DTri) : Prop :=
  els'.length = els.length ∧ ∀ (s : ℕ) (e : DTri), els[s]? = some e → ∃ e', els'[s]? = some e' ∧ SameBut e e'

theorem Relinked.refl (els : List DTri) : Relinked els els := ⟨rfl, fun _ e h => ⟨e, h, SameBut.refl e⟩⟩

theorem Relinked.trans {a b c : List DTri} (h : Relinked a b) (h' : Relinked b c) : Relinked a c := by
  refine ⟨h'.1.trans h.1, fun s e he => ?_⟩
  obtain ⟨e1, h1, h2⟩ := h.2 s e he
  obtain ⟨e2, h3, h4⟩ := h'.2 s e1 h1
  exact ⟨e2, h3, h2.trans h4⟩

theorem Relinked.back {els els' : List DTri} (h : Relinked els els') {s : ℕ} {e' : DTri}
    (he : els'[s]? = some e') : ∃ e, els[s]? = some e ∧ SameBut e e' := by
  have hlt : s < els.length := by rw [← h.1]; exact lt_of_some he
  obtain ⟨e1, h1, h2⟩ := h.2 s _ (List.getElem?_eq_getElem hlt)
  rw [he] at h1
  cases h1
  exact ⟨_, List.getElem?_eq_getElem hlt, h2⟩

theorem SameBut.side {F : ℤ → Prop} {strict : Prop} {e e' : DTri} (h : SameBut e e') {i : Fin 3}
    (hs : SideOK F strict e i) : SideOK F strict e' i := by
  unfold SideOK
  rw [h.1, h.2.1, h.2.2 i]
  exact hs

theorem Relinked.sides {F : ℤ → Prop} {strict : Prop} {els els' : List DTri} (h : Relinked els els')
    (hs : SidesOK F strict els) : SidesOK F strict els' := by
  refine forall_mem fun s e' he' i => ?_
  obtain ⟨e, h1, h2⟩ := h.back he'
  exact h2.side (hs e (List.mem_of_getElem? h1) i)

theorem oppositenode_some {e : DTri} {old : ℤ} {i : Fin 3} (h : e.oppositenode old = some i) :
    e.neighbors i = old := by
  unfold DTri.oppositenode at h
  split_ifs at h with h0 h1 h2 <;> cases h <;> assumption

theorem relink_relinked {els els' : List DTri} {t : ℕ} {old new : ℤ} (h : relink els t old new = some els')
    (ho : old ≠ -1) (hn : new ≠ -1) : Relinked els els' := by
  unfold relink at h
  simp only [Option.bind_eq_bind, Option.bind_eq_some_iff] at h
  obtain ⟨e, he, i, hi, h⟩ := h
  cases h
  refine ⟨by simp, fun s g hg => ?_⟩
  by_cases hs : t = s
  · subst hs
    rw [he] at hg
    cases hg
    refine ⟨_, set_same _ (lt_of_some he), rfl, rfl, fun k => ?_⟩
    by_cases hk : k = i
    · subst hk
      simp only [Function.update_self]
      rw [oppositenode_some hi]
      exact ⟨fun h => absurd h hn, fun h => absurd h ho⟩
    · simp only [Function.update_of_ne hk]
  · exact ⟨g, by rw [set_other _ hs, hg], SameBut.refl g⟩

theorem relinkNonneg_relinked {els els' : List DTri} {t old new : ℤ} (h : relinkNonneg els t old new = some els')
    (ho : old ≠ -1) (hn : new ≠ -1) : Relinked els els' := by
  unfold relinkNonneg at h
  split_ifs at h
  · exact relink_relinked h ho hn
  · cases h; exact Relinked.refl els

theorem relinkSome_relinked {els els' : List DTri} {t old new : ℤ} (h : relinkSome els t old new = some els')
    (ho : old ≠ -1) (hn : new ≠ -1) : Relinked els els' := by
  unfold relinkSome at h
  split_ifs at h
  · cases h; exact Relinked.refl els
  · exact relink_relinked h ho hn

/-- A list with some places changed. -/
theorem sides_set {F : ℤ → Prop} {strict : Prop} {els : List DTri} {t : ℕ} {e : DTri}
    (h : SidesOK F strict els) (he : ∀ i, SideOK F strict e i) : SidesOK F strict (els.set t e) := by
  intro g hg
  rcases List.mem_or_eq_of_mem_set hg with hg | rfl
  · exact h g hg
  · exact he

theorem sides_append {F : ℤ → Prop} {strict : Prop} {els els' : List DTri}
    (h : SidesOK F strict els) (h' : SidesOK F strict els') : SidesOK F strict (els ++ els') := by
  intro g hg
  rcases List.mem_append.1 hg with hg | hg
  · exact h g hg
  · exact h' g hg

/-- A side that goes over from `e` to a new element. -/
theorem SideOK.copy {F : ℤ → Prop} {strict : Prop} {e g : DTri} {i k : Fin 3} (h : SideOK F strict e i)
    (h1 : g.neighbors k = -1 ↔ e.neighbors i = -1) (h2 : g.sides k = e.sides i)
    (h3 : g.nodes (k + 1) = e.nodes (i + 1)) (h4 : g.nodes (k + 2) = e.nodes (i + 2)) : SideOK F strict g k := by
  unfold SideOK
  rw [h1, h2, h3, h4]
  exact h

/-- A new inner side that is not marked. -/
theorem SideOK.inner {F : ℤ → Prop} {strict : Prop} {g : DTri} {k : Fin 3} (h1 : g.neighbors k ≠ -1)
    (h2 : g.sides k = false) : SideOK F strict g k := by
  unfold SideOK
  rw [h2]
  exact ⟨fun h => absurd h h1, fun _ h => absurd h (by decide), fun h => absurd h (by decide)⟩

/-- One half of a side, or the whole side, with the same mark. -/
theorem SideOK.half {F : ℤ → Prop} {strict : Prop} {e g : DTri} {i k : Fin 3} (h : SideOK F strict e i)
    (h1 : g.neighbors k = -1 ↔ e.neighbors i = -1) (h2 : g.sides k = e.sides i)
    (h3 : e.sides i = true → F (g.nodes (k + 1)) ∧ F (g.nodes (k + 2))) : SideOK F strict g k := by
  unfold SideOK
  rw [h1, h2]
  exact ⟨h.1, h.2.1, h3⟩

theorem swapAt_sides {F : ℤ → Prop} {strict : Prop} {els els' : List DTri} {p1 m1 : ℤ} {now nei : ℕ} {j : Fin 3}
    (h : swapAt els p1 m1 now nei j = some els') (hg : Glued els now 0 nei j) (hne : now ≠ nei)
    (hs : SidesOK F strict els) (hp : ∀ f, els[nei]? = some f → f.nodes j ≠ m1 ∧ f.nodes j ≠ p1) :
    SidesOK F strict els' ∧ ∀ z, UsedNode els z → UsedNode els' z := by
  obtain ⟨e0, tmp, g1, g2, g3, g4, g5, g6⟩ := hg
  unfold swapAt at h
  simp only [Option.bind_eq_bind, Option.bind_eq_some_iff] at h
  obtain ⟨tmp', h1, L1, h2, e1, h3, L2, h4, e2, h5, f2, h6, e3, h7, h⟩ := h
  rw [g2] at h1
  cases h1
  have r1 := relinkNonneg_relinked h2 (by omega) (by omega)
  have r2 := r1.trans (relinkNonneg_relinked h4 (by omega) (by omega))
  obtain ⟨e0', b1, b2⟩ := r2.back h5
  rw [g1] at b1
  cases b1
  obtain ⟨f0', c1, c2⟩ := r2.back h6
  rw [g2] at c1
  cases c1
  rw [set_other _ hne.symm, h5] at h7
  cases h7
  have hpn := hp tmp g2
  rw [if_neg (by tauto)] at h
  cases h
  have me := List.mem_of_getElem? g1
  have mf := List.mem_of_getElem? g2
  obtain ⟨be1, be2, be3⟩ := b2
  have e5 : tmp.nodes (j + 1) = e0.nodes 2 := g5
  have e6 : tmp.nodes (j + 2) = e0.nodes 1 := g6
  refine ⟨sides_set (sides_set (r2.sides hs) ?_) ?_, ?_⟩
  · refine fin3 0 ?_ ?_ ?_
    · refine (hs tmp mf (j + 2)).copy Iff.rfl rfl ?_ ?_
      · rw [fin3_21]; rfl
      · rw [fin3_22]
        exact (congrFun be1 2).trans e5.symm
    · refine (hs e0 me 1).copy (be3 1) (congrFun be2 1) ?_ ?_
      · exact congrFun be1 2
      · exact congrFun be1 0
    · exact SideOK.inner (by show (now : ℤ) ≠ -1; omega) rfl
  · refine fin3 0 ?_ ?_ ?_
    · refine (hs tmp mf (j + 1)).copy Iff.rfl rfl ?_ ?_
      · rw [fin3_11]
        exact (congrFun be1 1).trans e6.symm
      · rw [fin3_12]; rfl
    · exact SideOK.inner (by show (nei : ℤ) ≠ -1; omega) rfl
    · refine (hs e0 me 2).copy (be3 2) (congrFun be2 2) ?_ ?_
      · exact congrFun be1 0
      · exact congrFun be1 1
  · have hnowlt : now < L2.length := lt_of_some h5
    have hneilt : nei < L2.length := lt_of_some h6
    have mnow := List.mem_of_getElem? (set_same (l := L2.set nei { f2 with
        sides := ![tmp.sides (j + 2), e2.sides 1, false], nodes := ![e2.nodes 0, tmp.nodes j, e2.nodes 2],
        neighbors := ![tmp.neighbors (j + 2), e2.neighbors 1, (now : ℤ)] }) { e2 with
        sides := ![tmp.sides (j + 1), false, e2.sides 2], nodes := ![e2.nodes 0, e2.nodes 1, tmp.nodes j],
        neighbors := ![tmp.neighbors (j + 1), (nei : ℤ), e2.neighbors 2] } (i := now) (by simpa using hnowlt))
    have mnei := List.mem_of_getElem? ((set_other (l := L2.set nei { f2 with
        sides := ![tmp.sides (j + 2), e2.sides 1, false], nodes := ![e2.nodes 0, tmp.nodes j, e2.nodes 2],
        neighbors := ![tmp.neighbors (j + 2), e2.neighbors 1, (now : ℤ)] }) { e2 with
        sides := ![tmp.sides (j + 1), false, e2.sides 2], nodes := ![e2.nodes 0, e2.nodes 1, tmp.nodes j],
        neighbors := ![tmp.neighbors (j + 1), (nei : ℤ), e2.neighbors 2] } hne).trans (set_same _ hneilt))
    have u0 : UsedNode _ (e0.nodes 0) := ⟨_, mnow, 0, congrFun be1 0⟩
    have u1 : UsedNode _ (e0.nodes 1) := ⟨_, mnow, 1, congrFun be1 1⟩
    have u2 : UsedNode _ (e0.nodes 2) := ⟨_, mnei, 2, congrFun be1 2⟩
    have u3 : UsedNode _ (tmp.nodes j) := ⟨_, mnow, 2, rfl⟩
    rintro z ⟨g, hg, k, rfl⟩
    obtain ⟨s, hgs⟩ := List.mem_iff_getElem?.1 hg
    by_cases s1 : s = now
    · subst s1
      rw [g1] at hgs
      cases hgs
      exact fin3 (P := fun k => UsedNode _ (e0.nodes k)) 0 u0 u1 u2 k
    by_cases s2 : s = nei
    · subst s2
      rw [g2] at hgs
      cases hgs
      refine fin3 (P := fun k => UsedNode _ (tmp.nodes k)) j u3 ?_ ?_ k
      · rw [e5]; exact u2
      · rw [e6]; exact u1
    · obtain ⟨g', hg', hsame⟩ := r2.2 s g hgs
      refine ⟨g', List.mem_of_getElem? (i := s) ?_, k, by rw [hsame.1]⟩
      rw [set_other _ (Ne.symm s1), set_other _ (Ne.symm s2), hg']

/-- What holds through all swaps holds after the loop of swaps, for a node that is not on a boundary. -/
theorem swapping_induct {P : List DTri → Prop} {nodes : List (DNode K)} {p1 m1 : ℤ} (hp1 : p1 < 0) (hm1 : m1 < 0)
    (hP : ∀ (els els' : List DTri) (now nei : ℕ) (e f : DTri) (j : Fin 3), Consistent nodes els → P els →
      els[now]? = some e → els[nei]? = some f → Glued els now 0 nei j → swapWanted nodes e f j = some true →
      swapAt els p1 m1 now nei j = some els' → P els') :
    ∀ (n : ℕ) (stack : List ℕ) (els els' : List DTri), Consistent nodes els →
    P els → swapping nodes p1 m1 n stack els = some els' → P els' := by
  intro n
  induction n with
  | zero =>
    intro stack els els' _ hs h
    cases stack with
    | nil => unfold swapping at h; cases h; exact hs
    | cons t s => unfold swapping at h; cases h
  | succ n ih =>
    intro stack els els' hc hs h
    cases stack with
    | nil => unfold swapping at h; cases h; exact hs
    | cons now stack =>
      unfold swapping at h
      simp only [Option.bind_eq_bind, Option.bind_eq_some_iff] at h
      obtain ⟨e, he, h⟩ := h
      split_ifs at h with h0
      · exact ih _ _ _ hc hs h
      obtain ⟨nei, f, j, hnei, hf, hj, hg⟩ := neighbor_glued hc he h0
      rw [hnei, Int.toNat_natCast] at h
      simp only [Option.bind_eq_some_iff] at h
      obtain ⟨f', hf', h⟩ := h
      rw [hf] at hf'
      cases hf'
      split_ifs at h with ha
      swap
      · exact ih _ _ _ hc hs h
      simp only [Option.bind_eq_some_iff] at h
      obtain ⟨j', hj', w, hw, h⟩ := h
      rw [hj] at hj'
      cases hj'
      have ie := hc.indices e (List.mem_of_getElem? he)
      have jf := hc.indices f (List.mem_of_getElem? hf)
      have jf' := jf j
      obtain ⟨w', hw1, hw2⟩ := swapWanted_spec (j := j) ie jf
      rw [hw1] at hw
      cases hw
      split_ifs at h with hwt
      · simp only [Option.bind_eq_some_iff] at h
        obtain ⟨els1, h1, h2⟩ := h
        have hw3 : w = true := by
          rcases hwt with h | h | h
          · exact h
          · omega
          · omega
        obtain ⟨q1, q2⟩ := hw2 hw3
        obtain ⟨els2, k1, -, -, -, k5, -⟩ := swap_step hc he hf hg p1 m1
        rw [h1] at k1
        cases k1
        exact ih _ _ _ (k5 q1 q2) (hP _ _ _ _ _ _ _ hc hs he hf hg (by rw [hw1, hw3]) h1) h2
      · exact ih _ _ _ hc hs h

theorem swapping_length {nodes : List (DNode K)} {p1 m1 : ℤ} (hp1 : p1 < 0) (hm1 : m1 < 0) {n : ℕ}
    {stack : List ℕ} {els els' : List DTri} (hc : Consistent nodes els)
    (h : swapping nodes p1 m1 n stack els = some els') : els'.length = els.length := by
  refine swapping_induct (P := fun l => l.length = els.length) hp1 hm1 ?_ n stack els els' hc rfl h
  intro l l' now nei e f j hc hl he hf hg _ h
  obtain ⟨l2, k1, -, -, -, -, -, -, k8, -⟩ := swap_step hc he hf hg p1 m1
  rw [h] at k1
  cases k1
  exact k8.trans hl

theorem swapping_sides {F : ℤ → Prop} {strict : Prop} {nodes : List (DNode K)} {p1 m1 : ℤ} (hp1 : p1 < 0)
    (hm1 : m1 < 0) (n : ℕ) (stack : List ℕ) (els els' : List DTri) (hc : Consistent nodes els)
    (hs : SidesOK F strict els) (h : swapping nodes p1 m1 n stack els = some els') :
    SidesOK F strict els' ∧ ∀ z, UsedNode els z → UsedNode els' z := by
  refine swapping_induct (P := fun l => SidesOK F strict l ∧ ∀ z, UsedNode els z → UsedNode l z) hp1 hm1 ?_
    n stack els els' hc ⟨hs, fun _ h => h⟩ h
  intro l l' now nei e f j hc hl he hf hg _ h
  have hi := hc.indices f (List.mem_of_getElem? hf) j
  obtain ⟨s1, s2⟩ := swapAt_sides h hg (hg.ne hc.oriented) hl.1 (by
    intro f' hf'
    rw [hf] at hf'
    cases hf'
    constructor <;> omega)
  exact ⟨s1, fun z hz => s2 z (hl.2 z hz)⟩

/-- An insertion on an outer side. -/
theorem on1_sides {F : ℤ → Prop} {strict : Prop} {els els' : List DTri} {now : ℕ} {k : Fin 3} {p1 q m1 : ℤ}
    {e : DTri} (he : els[now]? = some e) (hk : e.neighbors k = -1)
    (h : getelementonTopo1 els now k p1 q m1 = some els') (hs : SidesOK F strict els)
    (hp : ∀ i, e.nodes i ≠ m1 ∧ e.nodes i ≠ p1) (hF : e.sides k = true → F q) :
    SidesOK F strict els' ∧ UsedNode els' q ∧ ∀ z, UsedNode els z → UsedNode els' z := by
  unfold getelementonTopo1 at h
  simp only [Option.bind_eq_bind, Option.bind_eq_some_iff] at h
  obtain ⟨e', he', L, h1, h⟩ := h
  rw [he] at he'
  cases he'
  have r1 := relinkSome_relinked h1 (by omega) (by omega)
  have me := List.mem_of_getElem? he
  have on : ∀ i, decide (e.nodes i = m1 ∨ e.nodes i = p1) = false := fun i => by
    rw [decide_eq_false]
    have := hp i
    tauto
  simp only [on, Bool.false_or] at h
  cases h
  have hlt : now < L.length := by rw [r1.1]; exact lt_of_some he
  have side := hs e me
  refine ⟨sides_append (sides_set (r1.sides hs) ?_) ?_, ?_, ?_⟩
  · refine fin3 0 ?_ ?_ ?_
    · exact (side (k + 2)).copy Iff.rfl rfl (by rw [fin3_21]; rfl) (by rw [fin3_22]; rfl)
    · refine (side k).half (by rw [hk]; rfl) rfl fun h => ⟨?_, ?_⟩
      · exact ((side k).2.2 h).1
      · exact hF h
    · exact SideOK.inner (by show (els.length : ℤ) ≠ -1; omega) rfl
  · intro g hg
    rw [List.mem_singleton] at hg
    subst hg
    refine fin3 0 ?_ ?_ ?_
    · exact (side (k + 1)).copy Iff.rfl rfl (by rw [fin3_11]; rfl) (by rw [fin3_12]; rfl)
    · exact SideOK.inner (by show (now : ℤ) ≠ -1; omega) rfl
    · refine (side k).half (by rw [hk]; rfl) rfl fun h => ⟨?_, ?_⟩
      · exact hF h
      · exact ((side k).2.2 h).2
  · exact ⟨_, List.mem_append_right _ (List.mem_singleton_self _), 0, rfl⟩
  · have mnow := fun (a b : DTri) => List.mem_append_left [b] (List.mem_of_getElem? (set_same (l := L) a hlt))
    have mlast := fun (a b : DTri) => List.mem_append_right (L.set now a) (List.mem_singleton_self b)
    rintro z ⟨g, hg, i, rfl⟩
    obtain ⟨s, hgs⟩ := List.mem_iff_getElem?.1 hg
    by_cases s1 : s = now
    · subst s1
      rw [he] at hgs
      cases hgs
      refine fin3 (P := fun i => UsedNode _ (e.nodes i)) k ?_ ?_ ?_ i
      · exact ⟨_, mnow _ _, 1, rfl⟩
      · exact ⟨_, mnow _ _, 2, rfl⟩
      · exact ⟨_, mlast _ _, 1, rfl⟩
    · obtain ⟨g', hg', hsame⟩ := r1.2 s g hgs
      refine ⟨g', List.mem_append_left _ (List.mem_of_getElem? (i := s) ?_), i, by rw [hsame.1]⟩
      rw [set_other _ (Ne.symm s1), hg']

/-- An insertion on an inner side. -/
theorem on2_sides {F : ℤ → Prop} {strict : Prop} {els els' : List DTri} {now nei : ℕ} {k j : Fin 3} {p1 q m1 : ℤ}
    {e f : DTri} (he : els[now]? = some e) (hf : els[nei]? = some f) (hg : Glued els now k nei j)
    (hne : now ≠ nei) (h : getelementonTopo2 els now k nei j p1 q m1 = some els') (hs : SidesOK F strict els)
    (hp : ∀ i, e.nodes i ≠ m1 ∧ e.nodes i ≠ p1) (hp' : ∀ i, f.nodes i ≠ m1 ∧ f.nodes i ≠ p1)
    (hF : e.sides k = true → F q) :
    SidesOK F strict els' ∧ UsedNode els' q ∧ ∀ z, UsedNode els z → UsedNode els' z := by
  obtain ⟨e0, f0, g1, g2, g3, g4, g5, g6⟩ := hg
  rw [he] at g1
  rw [hf] at g2
  cases g1; cases g2
  unfold getelementonTopo2 at h
  simp only [Option.bind_eq_bind, Option.bind_eq_some_iff] at h
  obtain ⟨e', he', f', hf', L1, h1, f2, h2, L, h3, h⟩ := h
  rw [he] at he'
  rw [hf] at hf'
  cases he'; cases hf'
  have r1 := relinkSome_relinked h1 (by omega) (by omega)
  have r2 := r1.trans (relinkSome_relinked h3 (by omega) (by omega))
  have me := List.mem_of_getElem? he
  have mf := List.mem_of_getElem? hf
  have on : ∀ i, decide (e.nodes i = m1 ∨ e.nodes i = p1) = false := fun i => by
    rw [decide_eq_false]
    have := hp i
    tauto
  have on' : ∀ i, decide (f.nodes i = m1 ∨ f.nodes i = p1) = false := fun i => by
    rw [decide_eq_false]
    have := hp' i
    tauto
  simp only [on, on', Bool.false_or] at h
  cases h
  have hlt : now < L.length := by rw [r2.1]; exact lt_of_some he
  have hlt' : nei < L.length := by rw [r2.1]; exact lt_of_some hf
  have side := hs e me
  have sidf := hs f mf
  have nk : e.neighbors k ≠ -1 := by omega
  refine ⟨sides_append (sides_set (sides_set (r2.sides hs) ?_) ?_) ?_, ?_, ?_⟩
  · refine fin3 0 ?_ ?_ ?_
    · exact (side (k + 2)).copy Iff.rfl rfl (by rw [fin3_21]; rfl) (by rw [fin3_22]; rfl)
    · refine (side k).half (iff_of_false (by show (nei : ℤ) ≠ -1; omega) nk) rfl fun h => ⟨?_, ?_⟩
      · exact ((side k).2.2 h).1
      · exact hF h
    · exact SideOK.inner (by show (els.length : ℤ) ≠ -1; omega) rfl
  · refine fin3 0 ?_ ?_ ?_
    · refine (sidf (j + 1)).copy Iff.rfl rfl ?_ (by rw [fin3_12]; rfl)
      rw [fin3_11]
      exact g6.symm
    · exact SideOK.inner (by show (els.length : ℤ) + 1 ≠ -1; omega) rfl
    · refine (side k).half (iff_of_false (by show (now : ℤ) ≠ -1; omega) nk) rfl fun h => ⟨?_, ?_⟩
      · exact hF h
      · exact ((side k).2.2 h).1
  · intro g hg
    simp only [List.mem_cons, List.not_mem_nil, or_false] at hg
    rcases hg with rfl | rfl
    · refine fin3 0 ?_ ?_ ?_
      · exact (side (k + 1)).copy Iff.rfl rfl (by rw [fin3_11]; rfl) (by rw [fin3_12]; rfl)
      · exact SideOK.inner (by show (now : ℤ) ≠ -1; omega) rfl
      · refine (side k).half (iff_of_false (by show (els.length : ℤ) + 1 ≠ -1; omega) nk) rfl fun h => ⟨?_, ?_⟩
        · exact hF h
        · exact ((side k).2.2 h).2
    · refine fin3 0 ?_ ?_ ?_
      · refine (sidf (j + 2)).copy Iff.rfl rfl (by rw [fin3_21]; rfl) ?_
        rw [fin3_22]
        exact g5.symm
      · refine (side k).half (iff_of_false (by show (els.length : ℤ) ≠ -1; omega) nk) rfl fun h => ⟨?_, ?_⟩
        · exact ((side k).2.2 h).2
        · exact hF h
      · exact SideOK.inner (by show (nei : ℤ) ≠ -1; omega) rfl
  · exact ⟨_, List.mem_append_right _ (List.mem_cons_self), 0, rfl⟩
  · have mnow := fun (a b c d : DTri) => List.mem_append_left [c, d] (List.mem_of_getElem?
      ((set_other (l := L.set now a) b hne.symm).trans (set_same a hlt)))
    have mlast := fun (a b c d : DTri) => List.mem_append_right ((L.set now a).set nei b)
      (List.mem_cons_self (a := c) (l := [d]))
    have mlast' := fun (a b c d : DTri) => List.mem_append_right ((L.set now a).set nei b)
      (List.mem_cons_of_mem c (List.mem_singleton_self d))
    rintro z ⟨g, hg, i, rfl⟩
    obtain ⟨s, hgs⟩ := List.mem_iff_getElem?.1 hg
    by_cases s1 : s = now
    · subst s1
      rw [he] at hgs
      cases hgs
      refine fin3 (P := fun i => UsedNode _ (e.nodes i)) k ?_ ?_ ?_ i
      · exact ⟨_, mnow _ _ _ _, 1, rfl⟩
      · exact ⟨_, mnow _ _ _ _, 2, rfl⟩
      · exact ⟨_, mlast _ _ _ _, 1, rfl⟩
    by_cases s2 : s = nei
    · subst s2
      rw [hf] at hgs
      cases hgs
      refine fin3 (P := fun i => UsedNode _ (f.nodes i)) j ?_ ?_ ?_ i
      · exact ⟨_, mlast' _ _ _ _, 1, rfl⟩
      · rw [g5]
        exact ⟨_, mlast _ _ _ _, 1, rfl⟩
      · rw [g6]
        exact ⟨_, mnow _ _ _ _, 2, rfl⟩
    · obtain ⟨g', hg', hsame⟩ := r2.2 s g hgs
      refine ⟨g', List.mem_append_left _ (List.mem_of_getElem? (i := s) ?_), i, by rw [hsame.1]⟩
      rw [set_other _ (Ne.symm s2), set_other _ (Ne.symm s1), hg']

/-- What `getelementon` does: the insertion on the side, then the swaps. -/
theorem getelementon_parts {d d' : Delaunay K} {nodes : List (DNode K)}
    (hc : Consistent d.nodes d.elements) {now : ℕ} {e : DTri} (he : d.elements[now]? = some e) {q : ℤ}
    (hq : 0 ≤ q ∧ q < d.nodes.length) (k : Fin 3)
    (hon : OnSegment (placeOf d.nodes (e.nodes (k + 1))) (placeOf d.nodes (e.nodes (k + 2))) (placeOf d.nodes q))
    {p1 m1 : ℤ} {rounds : ℕ} (hm : markBoundary d.nodes q (e.sides k) = some nodes)
    (h : d.getelementon rounds now k p1 q m1 = some d') :
    d'.nodes = nodes ∧ (∀ z, placeOf nodes z = placeOf d.nodes z) ∧
    ∃ els stack, Inserted nodes d.elements els q stack ∧ els.length ≤ d.elements.length + 2 ∧
      swapping nodes p1 m1 rounds stack els = some d'.elements ∧
      ((e.neighbors k = -1 ∧ getelementonTopo1 d.elements now k p1 q m1 = some els) ∨
        ∃ (nei : ℕ) (f : DTri) (j : Fin 3), d.elements[nei]? = some f ∧ Glued d.elements now k nei j ∧
          getelementonTopo2 d.elements now k nei j p1 q m1 = some els) := by
  have hA := hc.oriented.at he
  rw [area2_rot _ e k, vecpro_rot] at hA
  obtain ⟨z0, z1, z2⟩ := between_on hA hon
  obtain ⟨nodes', n1, n2, n3⟩ := markBoundary_spec hq (e.sides k)
  rw [hm] at n1
  cases n1
  obtain ⟨hc', -⟩ := hc.congr (nodes' := nodes) (fun z _ _ => n2 z) n3.ge
  have hq' : 0 ≤ q ∧ q < nodes.length := by rw [n3]; exact hq
  rw [← n2, ← n2, ← n2] at z0 z1 z2
  unfold Delaunay.getelementon at h
  rw [he] at h
  simp only [bind, Option.bind, hm, pure] at h
  by_cases hk : e.neighbors k = -1
  · rw [if_pos hk] at h
    obtain ⟨els', h1, hlen, h2⟩ := on1_step hc' he hk hq' z0 z1 z2 p1 m1
    rw [h1] at h
    simp only at h
    split at h
    · cases h
    rename_i els'' h3
    cases h
    exact ⟨rfl, n2, els', _, h2, by omega, h3, Or.inl ⟨hk, h1⟩⟩
  · rw [if_neg hk] at h
    have hneg : ¬e.neighbors k < 0 := by
      rcases hc.linked now e he k with h | ⟨u, j, h⟩
      · exact absurd h hk
      · rw [h.left he]; omega
    obtain ⟨nei, f, j, hnei, hf, hj, hg⟩ := neighbor_glued hc' he hneg
    have hat : atInt d.elements (e.neighbors k) = some f := by
      rw [atInt, if_neg hneg, hnei, Int.toNat_natCast, hf]
    rw [hat] at h
    simp only [hc.active f (List.mem_of_getElem? hf), if_true, hj, hnei, Int.toNat_natCast] at h
    have hD := hc'.oriented.at hf
    rw [area2_rot _ f j] at hD
    obtain ⟨e2, f2, d1, d2, -, -, d5, d6⟩ := id hg
    rw [he] at d1
    rw [hf] at d2
    cases d1; cases d2
    rw [d5, d6] at hD
    obtain ⟨z3, z4⟩ := across_pos z0 z1 z2 hD
    obtain ⟨els', h1, hlen, h2⟩ := on2_step hc' he hf hg hq' z1 z2 z3 z4 p1 m1
    rw [h1] at h
    simp only at h
    split at h
    · cases h
    rename_i els'' h3
    cases h
    exact ⟨rfl, n2, els', _, h2, by omega, h3, Or.inr ⟨nei, f, j, hf, hg, h1⟩⟩

/-- The marks through an insertion on a side with its swaps. -/
theorem getelementon_sides {F : ℤ → Prop} {strict : Prop} {d d' : Delaunay K} {nodes : List (DNode K)}
    (hc : Consistent d.nodes d.elements) {now : ℕ} {e : DTri} (he : d.elements[now]? = some e) {q : ℤ}
    (hq : 0 ≤ q ∧ q < d.nodes.length) (k : Fin 3)
    (hon : OnSegment (placeOf d.nodes (e.nodes (k + 1))) (placeOf d.nodes (e.nodes (k + 2))) (placeOf d.nodes q))
    {p1 m1 : ℤ} (hp1 : p1 < 0) (hm1 : m1 < 0) {rounds : ℕ} (hm : markBoundary d.nodes q (e.sides k) = some nodes)
    (h : d.getelementon rounds now k p1 q m1 = some d') (hs : SidesOK F strict d.elements)
    (hF : e.sides k = true → F q) :
    d'.nodes = nodes ∧ SidesOK F strict d'.elements ∧ UsedNode d'.elements q ∧
      (∀ z, UsedNode d.elements z → UsedNode d'.elements z) ∧ d'.elements.length ≤ d.elements.length + 2 := by
  obtain ⟨h1, -, els, stack, h3, h4, h5, h6⟩ := getelementon_parts hc he hq k hon hm h
  have hp : ∀ g ∈ d.elements, ∀ i, g.nodes i ≠ m1 ∧ g.nodes i ≠ p1 := by
    intro g hg i
    have := hc.indices g hg i
    constructor <;> omega
  have hins : SidesOK F strict els ∧ UsedNode els q ∧ ∀ z, UsedNode d.elements z → UsedNode els z := by
    rcases h6 with ⟨hk, h6⟩ | ⟨nei, f, j, hf, hg, h6⟩
    · exact on1_sides he hk h6 hs (hp e (List.mem_of_getElem? he)) hF
    · exact on2_sides he hf hg (hg.ne hc.oriented) h6 hs (hp e (List.mem_of_getElem? he))
        (hp f (List.mem_of_getElem? hf)) hF
  obtain ⟨a1, a2, a3⟩ := hins
  obtain ⟨b1, b2⟩ := swapping_sides hp1 hm1 _ _ _ _ h3.consistent a1 h5
  exact ⟨h1, b1, b2 _ a2, fun z hz => b2 _ (a3 z hz), by rw [swapping_length hp1 hm1 h3.consistent h5]; exact h4⟩

end Pansfem
