/-
The corners of the elements through insertions and swaps, whatever the triangulation is like.
-/
import Verif.Model.Delaunay
import Mathlib.Tactic.FinCases

namespace Pansfem

set_option linter.unusedSectionVars false

/-- The corners satisfy `S`, and no boundary has been looked at yet. -/
def Raw (S : ℤ → Prop) (e : DTri) : Prop := (∀ i, S (e.nodes i)) ∧ e.active = true ∧ e.check = false

def CornersIn (S : ℤ → Prop) (els : List DTri) : Prop := ∀ e ∈ els, Raw S e

variable {S : ℤ → Prop} {els els' : List DTri}

theorem CornersIn.at (h : CornersIn S els) {t : ℕ} {e : DTri} (he : els[t]? = some e) : Raw S e :=
  h e (List.mem_of_getElem? he)

theorem CornersIn.set (h : CornersIn S els) {t : ℕ} {e : DTri} (he : Raw S e) : CornersIn S (els.set t e) := by
  intro g hg
  rcases List.mem_or_eq_of_mem_set hg with hg | rfl
  · exact h g hg
  · exact he

theorem CornersIn.append (h : CornersIn S els) (h' : CornersIn S els') : CornersIn S (els ++ els') := by
  intro g hg
  rcases List.mem_append.1 hg with hg | hg
  · exact h g hg
  · exact h' g hg

theorem corners3 {e : DTri} {a b c : ℤ} (h : e.nodes = ![a, b, c]) (ha : S a) (hb : S b) (hc : S c) (h1 : e.active = true)
    (h2 : e.check = false) : Raw S e := by
  refine ⟨fun i => ?_, h1, h2⟩
  rw [h]
  fin_cases i <;> assumption

theorem relink_corners {t : ℕ} {old new : ℤ} (h : relink els t old new = some els') (hs : CornersIn S els) :
    CornersIn S els' := by
  unfold relink at h
  simp only [Option.bind_eq_bind, Option.bind_eq_some_iff] at h
  obtain ⟨e, he, i, -, h⟩ := h
  cases h
  have se := hs.at he
  exact hs.set se

theorem relinkNonneg_corners {t old new : ℤ} (h : relinkNonneg els t old new = some els') (hs : CornersIn S els) :
    CornersIn S els' := by
  unfold relinkNonneg at h
  split_ifs at h
  · exact relink_corners h hs
  · cases h; exact hs

theorem relinkSome_corners {t old new : ℤ} (h : relinkSome els t old new = some els') (hs : CornersIn S els) :
    CornersIn S els' := by
  unfold relinkSome at h
  split_ifs at h
  · cases h; exact hs
  · exact relink_corners h hs

theorem swapAt_corners {p1 m1 : ℤ} {now nei : ℕ} {j : Fin 3} (h : swapAt els p1 m1 now nei j = some els')
    (hs : CornersIn S els) : CornersIn S els' := by
  unfold swapAt at h
  simp only [Option.bind_eq_bind, Option.bind_eq_some_iff] at h
  obtain ⟨tmp, h1, L1, h2, e1, h3, L2, h4, e2, h5, f2, h6, e3, h7, h⟩ := h
  have c1 := relinkNonneg_corners h2 hs
  have c2 := relinkNonneg_corners h4 c1
  have st := hs.at h1
  have se := c2.at h5
  have sf := c2.at h6
  have c3 : CornersIn S (L2.set nei { f2 with sides := ![tmp.sides (j + 2), e2.sides 1, false], nodes := ![e2.nodes 0, tmp.nodes j, e2.nodes 2], neighbors := ![tmp.neighbors (j + 2), e2.neighbors 1, (now : ℤ)] }) :=
    c2.set (corners3 rfl (se.1 0) (st.1 j) (se.1 2) sf.2.1 sf.2.2)
  have se3 := c3.at h7
  have c4 : CornersIn S ((L2.set nei { f2 with sides := ![tmp.sides (j + 2), e2.sides 1, false], nodes := ![e2.nodes 0, tmp.nodes j, e2.nodes 2], neighbors := ![tmp.neighbors (j + 2), e2.neighbors 1, (now : ℤ)] }).set now
      { e3 with sides := ![tmp.sides (j + 1), false, e3.sides 2], nodes := ![e3.nodes 0, e3.nodes 1, tmp.nodes j], neighbors := ![tmp.neighbors (j + 1), (nei : ℤ), e3.neighbors 2] }) :=
    c3.set (corners3 rfl (se3.1 0) (se3.1 1) (st.1 j) se3.2.1 se3.2.2)
  split_ifs at h with hb
  · simp only [Option.bind_eq_some_iff] at h
    obtain ⟨e4, h8, f4, h9, h⟩ := h
    cases h
    have s8 := c4.at h8
    have c5 := c4.set (t := now) (e := { e4 with sides := Function.update e4.sides 1 true }) s8
    have s9 := c5.at h9
    exact c5.set s9
  · cases h
    exact c4

theorem swapping_corners {K : Type} [Field K] [LinearOrder K] {nodes : List (DNode K)} {p1 m1 : ℤ} :
    ∀ (n : ℕ) (stack : List ℕ) (els els' : List DTri), swapping nodes p1 m1 n stack els = some els' →
    CornersIn S els → CornersIn S els' := by
  intro n
  induction n with
  | zero =>
    intro stack els els' h hs
    cases stack with
    | nil => unfold swapping at h; cases h; exact hs
    | cons => unfold swapping at h; cases h
  | succ n ih =>
    intro stack els els' h hs
    cases stack with
    | nil => unfold swapping at h; cases h; exact hs
    | cons now stack =>
      unfold swapping at h
      simp only [Option.bind_eq_bind, Option.bind_eq_some_iff] at h
      obtain ⟨e, he, h⟩ := h
      split_ifs at h
      · exact ih _ _ _ h hs
      simp only [Option.bind_eq_some_iff] at h
      obtain ⟨f, hf, h⟩ := h
      split_ifs at h
      · simp only [Option.bind_eq_some_iff] at h
        obtain ⟨j, hj, w, hw, h⟩ := h
        split_ifs at h
        · simp only [Option.bind_eq_some_iff] at h
          obtain ⟨els1, h1, h2⟩ := h
          exact ih _ _ _ h2 (swapAt_corners h1 hs)
        · exact ih _ _ _ h hs
      · exact ih _ _ _ h hs

theorem in_corners {now : ℕ} {p1 q m1 : ℤ} (h : getelementinTopo els now p1 q m1 = some els') (hs : CornersIn S els)
    (hq : S q) : CornersIn S els' := by
  unfold getelementinTopo at h
  simp only [Option.bind_eq_bind, Option.bind_eq_some_iff] at h
  obtain ⟨e, he, L1, h1, e', -, L2, h2, h⟩ := h
  cases h
  have se := hs.at he
  refine ((relinkNonneg_corners h2 (relinkNonneg_corners h1 hs)).set (corners3 rfl hq (se.1 _) (se.1 _) rfl rfl)).append ?_
  intro g hg
  simp only [List.mem_cons, List.not_mem_nil, or_false] at hg
  rcases hg with rfl | rfl
  · exact corners3 rfl hq (se.1 _) (se.1 _) rfl rfl
  · exact corners3 rfl hq (se.1 _) (se.1 _) rfl rfl

theorem on1_corners {now : ℕ} {k : Fin 3} {p1 q m1 : ℤ} (h : getelementonTopo1 els now k p1 q m1 = some els')
    (hs : CornersIn S els) (hq : S q) : CornersIn S els' := by
  unfold getelementonTopo1 at h
  simp only [Option.bind_eq_bind, Option.bind_eq_some_iff] at h
  obtain ⟨e, he, L, h1, h⟩ := h
  cases h
  have se := hs.at he
  refine ((relinkSome_corners h1 hs).set (corners3 rfl hq (se.1 _) (se.1 _) rfl rfl)).append ?_
  intro g hg
  rw [List.mem_singleton] at hg
  subst hg
  exact corners3 rfl hq (se.1 _) (se.1 _) rfl rfl

theorem on2_corners {now nei : ℕ} {k j : Fin 3} {p1 q m1 : ℤ} (h : getelementonTopo2 els now k nei j p1 q m1 = some els')
    (hs : CornersIn S els) (hq : S q) : CornersIn S els' := by
  unfold getelementonTopo2 at h
  simp only [Option.bind_eq_bind, Option.bind_eq_some_iff] at h
  obtain ⟨e, he, f, hf, L1, h1, f', -, L2, h2, h⟩ := h
  cases h
  have se := hs.at he
  have sf := hs.at hf
  refine (((relinkSome_corners h2 (relinkSome_corners h1 hs)).set (corners3 rfl hq (se.1 _) (se.1 _) rfl rfl)).set
    (corners3 rfl hq (se.1 _) (sf.1 _) rfl rfl)).append ?_
  intro g hg
  simp only [List.mem_cons, List.not_mem_nil, or_false] at hg
  rcases hg with rfl | rfl
  · exact corners3 rfl hq (se.1 _) (se.1 _) rfl rfl
  · exact corners3 rfl hq (sf.1 _) (se.1 _) rfl rfl

theorem getelementin_corners {K : Type} [Field K] [LinearOrder K] {rounds now : ℕ} {d d' : Delaunay K} {p1 q m1 : ℤ}
    (h : d.getelementin rounds now p1 q m1 = some d') (hs : CornersIn S d.elements) (hq : S q) :
    CornersIn S d'.elements ∧ d'.nodes = d.nodes := by
  unfold Delaunay.getelementin at h
  simp only [Option.bind_eq_bind, Option.bind_eq_some_iff] at h
  obtain ⟨L1, h1, L2, h2, h⟩ := h
  cases h
  exact ⟨swapping_corners _ _ _ _ h2 (in_corners h1 hs hq), rfl⟩

theorem getelementon_corners {K : Type} [Field K] [LinearOrder K] {rounds now : ℕ} {d d' : Delaunay K} {k : Fin 3}
    {p1 q m1 : ℤ} (h : d.getelementon rounds now k p1 q m1 = some d') (hs : CornersIn S d.elements) (hq : S q) :
    CornersIn S d'.elements ∧ ∃ b, markBoundary d.nodes q b = some d'.nodes := by
  unfold Delaunay.getelementon at h
  simp only [Option.bind_eq_bind, Option.bind_eq_some_iff] at h
  obtain ⟨e, he, nodes, hm, h⟩ := h
  split_ifs at h
  · simp only [Option.bind_eq_some_iff] at h
    obtain ⟨L1, h1, L2, h2, h⟩ := h
    cases h
    exact ⟨swapping_corners _ _ _ _ h2 (on1_corners h1 hs hq), _, hm⟩
  · simp only [Option.bind_eq_some_iff] at h
    obtain ⟨f, hf, h⟩ := h
    split_ifs at h
    · simp only [Option.bind_eq_some_iff] at h
      obtain ⟨j, hj, L1, h1, L2, h2, h⟩ := h
      cases h
      exact ⟨swapping_corners _ _ _ _ h2 (on2_corners h1 hs hq), _, hm⟩
    · simp only [Option.bind_eq_some_iff] at h
      obtain ⟨L1, h1, L2, h2, h⟩ := h
      cases h
      exact ⟨swapping_corners _ _ _ _ h2 (on1_corners h1 hs hq), _, hm⟩

end Pansfem
