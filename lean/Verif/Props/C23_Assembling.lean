/-
C23: `Assembling` adds exactly the element contributions.  C24: order of elements and symmetry.
C26: a solution of the reduced system solves the full one.
-/
import Verif.Lemmas.Assembly
import Verif.Props.C20_DofTables
import Verif.Props.C07_SparseOps

namespace Pansfem

variable {K : Type} [Ring K]

theorem get_of_ok {N : ℕ} {A : LIL K} (h : okK N A) {I : ℕ} (hI : I < N) (J : ℕ) :
    A.get I J = some (obsK A I J) := by
  unfold obsK
  rw [LIL.holds_get (LIL.holds_of_wf h.1) I J (by rw [h.2.2.1]; exact hI)]
  rfl

theorem entry_of_ok {N : ℕ} {F : List K} (h : F.length = N) {I : ℕ} (hI : I < N) :
    F[I]? = some (obsF F I) := by
  unfold obsF
  rw [List.getElem?_eq_getElem (by omega)]
  rfl

theorem eff_get {N : ℕ} {A A' : LIL K} (h : okK N A) (h' : okK N A') {e : ℕ → ℕ → K}
    (he : obsK A' = obsK A + e) {I : ℕ} (hI : I < N) (J : ℕ) :
    A'.get I J = (A.get I J).map (· + e I J) := by
  rw [get_of_ok h' hI, get_of_ok h hI, he]; rfl

theorem eff_entry {N : ℕ} {F F' : List K} (h : F.length = N) (h' : F'.length = N) {e : ℕ → K}
    (he : obsF F' = obsF F + e) (I : ℕ) : F'[I]? = F[I]?.map (· + e I) := by
  by_cases hI : I < N
  · rw [entry_of_ok h' hI, entry_of_ok h hI, he]; rfl
  · rw [List.getElem?_eq_none (by omega), List.getElem?_eq_none (by omega)]; rfl

variable (ntg : List (List ℤ)) (u : List (Vec K)) (Ke : Mat K) (Fe : Vec K) (N : ℕ)
  (num : ℕ → ℕ → ℤ) (uu ke : ℕ → ℕ → K) (fe : ℕ → K)

/-- Contribution of an element with local dofs `L` to the entry `(I, J)`: the sum of `ke a b` over
the pairs of local dofs numbered `I` and `J`. -/
def contribK (L : List (ℕ × ℕ × ℕ)) (I J : ℕ) : K :=
  (L.map fun p => (L.map fun q =>
    if num p.1 p.2.1 = I ∧ num q.1 q.2.1 = J then ke p.2.2 q.2.2 else 0).sum).sum

/-- Contribution to the right-hand side `I`: for local dofs numbered `I` the element vector minus
`ke a b * u b` over the fixed local dofs `b`. -/
def contribF (L : List (ℕ × ℕ × ℕ)) (I : ℕ) : K :=
  (L.map fun p => if num p.1 p.2.1 = I then fe p.2.2 - (L.map fun q =>
    if num q.1 q.2.1 = -1 then ke p.2.2 q.2.2 * uu q.1 q.2.1 else 0).sum else 0).sum

theorem rowK_sum (L : List (ℕ × ℕ × ℕ)) : (L.map (rowK L num ke)).sum = contribK num ke L := by
  funext I J
  rw [sum_apply1, sum_apply1]; rfl

theorem rowF_sum (L : List (ℕ × ℕ × ℕ)) :
    (L.map fun p => rowFe num fe p - rowFu L num uu ke p).sum = contribF num uu ke fe L := by
  funext I
  rw [sum_apply1]
  unfold contribF
  congr 2
  funext p
  rw [Pi.sub_apply]
  unfold rowFe rowFu
  by_cases h : num p.1 p.2.1 = I
  · simp [h]
  · simp [h]

theorem rowFu_sum (L : List (ℕ × ℕ × ℕ)) :
    (L.map fun p => -rowFu L num uu ke p).sum = contribF num uu ke (fun _ => 0) L := by
  rw [← rowF_sum]
  congr 2
  funext p I
  simp [rowFe]

theorem asmKFe_eff {nte : List (List (ℕ × ℕ))} {element : List ℕ}
    (hl : element.length ≤ nte.length)
    (R : Reads ntg u Ke (localDofs nte element) N num uu ke)
    (hfe : ∀ p ∈ localDofs nte element, Fe.at? p.2.2 = some (fe p.2.2)) :
    HasEff (okKF N) obsKF (asmKFe u Ke Fe ntg nte element)
      (contribK num ke (localDofs nte element), contribF num uu ke fe (localDofs nte element)) := by
  have h := (hasEff_foldlM (localDofs nte element) _ _ fun p hp => asmKFe_row R hfe hp).congr
    ((sum_fst _ _).trans (congrArg₂ Prod.mk (rowK_sum num ke _) (rowF_sum num uu ke fe _)))
  intro st hst
  obtain ⟨st', h1, h2⟩ := h st hst
  refine ⟨st', ?_, h2⟩
  rw [← h1]
  unfold asmKFe
  rw [forDofs_eq _ _ hl]
  simp only [forDofs_eq _ _ hl, Option.bind_eq_bind, Option.pure_def]

/-- **C23**: the overload that fills `K` and `F` from an element matrix and an element vector. -/
theorem C23_KFe (nte : List (List (ℕ × ℕ))) (element : List ℕ)
    (hl : element.length ≤ nte.length) (R : Reads ntg u Ke (localDofs nte element) N num uu ke)
    (hfe : ∀ p ∈ localDofs nte element, Fe.at? p.2.2 = some (fe p.2.2))
    (A : LIL K) (F : List K) (hA : A.WF) (hb : A.InBounds) (hr : A.rows = N) (hc : A.cols = N)
    (hF : F.length = N) :
    ∃ A' F', asmKFe u Ke Fe ntg nte element (A, F) = some (A', F') ∧
      A'.WF ∧ A'.InBounds ∧ A'.rows = N ∧ A'.cols = N ∧ F'.length = N ∧
      (∀ I < N, ∀ J, A'.get I J
        = (A.get I J).map (· + contribK num ke (localDofs nte element) I J)) ∧
      ∀ I : ℕ, F'[I]? = F[I]?.map (· + contribF num uu ke fe (localDofs nte element) I) := by
  obtain ⟨⟨A', F'⟩, h1, ⟨h2, h3⟩, h4⟩ := asmKFe_eff ntg u Ke Fe N num uu ke fe hl R hfe (A, F)
    ⟨⟨hA, hb, hr, hc⟩, hF⟩
  have e1 := congrArg Prod.fst h4
  have e2 := congrArg Prod.snd h4
  exact ⟨A', F', h1, h2.1, h2.2.1, h2.2.2.1, h2.2.2.2, h3,
    fun I hI J => eff_get ⟨hA, hb, hr, hc⟩ h2 e1 hI J, fun I => eff_entry hF h3 e2 I⟩

theorem asmKF_eff {nte : List (List (ℕ × ℕ))} {element : List ℕ}
    (hl : element.length ≤ nte.length)
    (R : Reads ntg u Ke (localDofs nte element) N num uu ke) :
    HasEff (okKF N) obsKF (asmKF u Ke ntg nte element)
      (contribK num ke (localDofs nte element),
        contribF num uu ke (fun _ => 0) (localDofs nte element)) := by
  have h := (hasEff_foldlM (localDofs nte element) _ _ fun p hp => asmKF_row R hp).congr
    ((sum_fst _ _).trans (congrArg₂ Prod.mk (rowK_sum num ke _) (rowFu_sum num uu ke _)))
  intro st hst
  obtain ⟨st', h1, h2⟩ := h st hst
  refine ⟨st', ?_, h2⟩
  rw [← h1]
  unfold asmKF
  rw [forDofs_eq _ _ hl]
  simp only [forDofs_eq _ _ hl, Option.bind_eq_bind, Option.pure_def]

/-- **C23**: the overload that fills `K` and `F` from an element matrix. -/
theorem C23_KF (nte : List (List (ℕ × ℕ))) (element : List ℕ)
    (hl : element.length ≤ nte.length) (R : Reads ntg u Ke (localDofs nte element) N num uu ke)
    (A : LIL K) (F : List K) (hA : A.WF) (hb : A.InBounds) (hr : A.rows = N) (hc : A.cols = N)
    (hF : F.length = N) :
    ∃ A' F', asmKF u Ke ntg nte element (A, F) = some (A', F') ∧
      A'.WF ∧ A'.InBounds ∧ A'.rows = N ∧ A'.cols = N ∧ F'.length = N ∧
      (∀ I < N, ∀ J, A'.get I J
        = (A.get I J).map (· + contribK num ke (localDofs nte element) I J)) ∧
      ∀ I : ℕ, F'[I]? = F[I]?.map (· + contribF num uu ke (fun _ => 0) (localDofs nte element) I) := by
  obtain ⟨⟨A', F'⟩, h1, ⟨h2, h3⟩, h4⟩ := asmKF_eff ntg u Ke N num uu ke hl R (A, F)
    ⟨⟨hA, hb, hr, hc⟩, hF⟩
  have e1 := congrArg Prod.fst h4
  have e2 := congrArg Prod.snd h4
  exact ⟨A', F', h1, h2.1, h2.2.1, h2.2.2.1, h2.2.2.2, h3,
    fun I hI J => eff_get ⟨hA, hb, hr, hc⟩ h2 e1 hI J, fun I => eff_entry hF h3 e2 I⟩

/-- **C23**: the overload with several node lists. -/
theorem C23_KF_fields (ntes : List (List (List (ℕ × ℕ)))) (elements : List (List ℕ))
    (hl : List.Forall₂ (fun (el : List ℕ) (nte : List (List (ℕ × ℕ))) => el.length ≤ nte.length)
      elements ntes) (R : Reads ntg u Ke (localDofs2 ntes elements) N num uu ke)
    (A : LIL K) (F : List K) (hA : A.WF) (hb : A.InBounds) (hr : A.rows = N) (hc : A.cols = N)
    (hF : F.length = N) :
    ∃ A' F', asmKF2 u Ke ntg ntes elements (A, F) = some (A', F') ∧
      A'.WF ∧ A'.InBounds ∧ A'.rows = N ∧ A'.cols = N ∧ F'.length = N ∧
      (∀ I < N, ∀ J, A'.get I J
        = (A.get I J).map (· + contribK num ke (localDofs2 ntes elements) I J)) ∧
      ∀ I : ℕ, F'[I]? = F[I]?.map (· + contribF num uu ke (fun _ => 0) (localDofs2 ntes elements) I) := by
  have h := (hasEff_foldlM (localDofs2 ntes elements) _ _ fun p hp => asmKF_row R hp).congr
    ((sum_fst _ _).trans (congrArg₂ Prod.mk (rowK_sum num ke _) (rowFu_sum num uu ke _)))
  obtain ⟨⟨A', F'⟩, h1, ⟨h2, h3⟩, h4⟩ := h (A, F) ⟨⟨hA, hb, hr, hc⟩, hF⟩
  have e1 := congrArg Prod.fst h4
  have e2 := congrArg Prod.snd h4
  refine ⟨A', F', ?_, h2.1, h2.2.1, h2.2.2.1, h2.2.2.2, h3,
    fun I hI J => eff_get ⟨hA, hb, hr, hc⟩ h2 e1 hI J, fun I => eff_entry hF h3 e2 I⟩
  rw [← h1]
  unfold asmKF2
  rw [forDofs2_eq _ _ hl]
  simp only [forDofs2_eq _ _ hl, Option.bind_eq_bind, Option.pure_def]

/-- **C23**: the overload that fills `K` alone; the displacements play no role. -/
theorem C23_K (nte : List (List (ℕ × ℕ))) (element : List ℕ)
    (hl : element.length ≤ nte.length)
    (hn : ∀ p ∈ localDofs nte element, dofNum ntg p.1 p.2.1 = some (num p.1 p.2.1))
    (hN : ∀ p ∈ localDofs nte element, num p.1 p.2.1 = -1 ∨ ∃ I : ℕ, num p.1 p.2.1 = I ∧ I < N)
    (hke : ∀ p ∈ localDofs nte element, ∀ q ∈ localDofs nte element,
      Ke.at? p.2.2 q.2.2 = some (ke p.2.2 q.2.2))
    (A : LIL K) (hA : A.WF) (hb : A.InBounds) (hr : A.rows = N) (hc : A.cols = N) :
    ∃ A', asmK Ke ntg nte element A = some A' ∧
      A'.WF ∧ A'.InBounds ∧ A'.rows = N ∧ A'.cols = N ∧
      (∀ I < N, ∀ J, A'.get I J
        = (A.get I J).map (· + contribK num ke (localDofs nte element) I J)) := by
  -- a displacement table in which everything can be read
  have hrow : ∀ p ∈ localDofs nte element,
      HasEff (okK N) obsK (fun A => (dofNum ntg p.1 p.2.1).bind fun gi => if gi ≠ -1 then
        (localDofs nte element).foldlM (fun A q => (dofNum ntg q.1 q.2.1).bind fun gj =>
          if gj ≠ -1 then (Ke.at? p.2.2 q.2.2).bind fun v => addK A gi gj v else some A) A
        else some A) (rowK (localDofs nte element) num ke p) := by
    intro p hp
    exact asmK_row' hn hN hke hp
  have h := (hasEff_foldlM (localDofs nte element) _ _ hrow).congr (rowK_sum num ke _)
  obtain ⟨A', h1, h2, h3⟩ := h A ⟨hA, hb, hr, hc⟩
  refine ⟨A', ?_, h2.1, h2.2.1, h2.2.2.1, h2.2.2.2,
    fun I hI J => eff_get ⟨hA, hb, hr, hc⟩ h2 h3 hI J⟩
  rw [← h1]
  unfold asmK
  rw [forDofs_eq _ _ hl]
  simp only [forDofs_eq _ _ hl, Option.bind_eq_bind, Option.pure_def]

/-- **C23**: the overload that fills `F` from an element vector. -/
theorem C23_Fe (nte : List (List (ℕ × ℕ))) (element : List ℕ)
    (hl : element.length ≤ nte.length)
    (hn : ∀ p ∈ localDofs nte element, dofNum ntg p.1 p.2.1 = some (num p.1 p.2.1))
    (hN : ∀ p ∈ localDofs nte element, num p.1 p.2.1 = -1 ∨ ∃ I : ℕ, num p.1 p.2.1 = I ∧ I < N)
    (hfe : ∀ p ∈ localDofs nte element, Fe.at? p.2.2 = some (fe p.2.2))
    (F : List K) (hF : F.length = N) :
    ∃ F', asmFe Fe ntg nte element F = some F' ∧ F'.length = N ∧
      ∀ I : ℕ, F'[I]? = F[I]?.map (· + ((localDofs nte element).map fun p =>
        if num p.1 p.2.1 = I then fe p.2.2 else 0).sum) := by
  have h := hasEff_foldlM (localDofs nte element) _ _
    fun p hp => asmFe_row (hn p hp) (hN p hp) (hfe p hp)
  obtain ⟨F', h1, h2, h3⟩ := h F hF
  refine ⟨F', ?_, h2, fun I => ?_⟩
  · rw [← h1]
    unfold asmFe
    rw [forDofs_eq _ _ hl]
    simp only [Option.bind_eq_bind, Option.pure_def]
  · rw [eff_entry hF h2 h3, sum_apply1]; rfl

/-- **C23**: the overload that takes the influence of the prescribed values off `F`. -/
theorem C23_Fu (nte : List (List (ℕ × ℕ))) (element : List ℕ)
    (hl : element.length ≤ nte.length) (R : Reads ntg u Ke (localDofs nte element) N num uu ke)
    (F : List K) (hF : F.length = N) :
    ∃ F', asmFu u Ke ntg nte element F = some F' ∧ F'.length = N ∧
      ∀ I : ℕ, F'[I]? = F[I]?.map (· + contribF num uu ke (fun _ => 0) (localDofs nte element) I) := by
  have h := (hasEff_foldlM (localDofs nte element) _ _ fun p hp => asmFu_row R hp).congr
    (rowFu_sum num uu ke _)
  obtain ⟨F', h1, h2, h3⟩ := h F hF
  refine ⟨F', ?_, h2, fun I => eff_entry hF h2 h3 I⟩
  rw [← h1]
  unfold asmFu
  rw [forDofs_eq _ _ hl]
  simp only [forDofs_eq _ _ hl, Option.bind_eq_bind, Option.pure_def]

/-- **C23**: Neumann conditions; those on fixed dofs are dropped. -/
theorem C23_neumann (f : List ((ℕ × ℕ) × K))
    (hn : ∀ p ∈ f, dofNum ntg p.1.1 p.1.2 = some (num p.1.1 p.1.2))
    (hN : ∀ p ∈ f, num p.1.1 p.1.2 = -1 ∨ ∃ I : ℕ, num p.1.1 p.1.2 = I ∧ I < N)
    (F : List K) (hF : F.length = N) :
    ∃ F', asmNeumann f ntg F = some F' ∧ F'.length = N ∧
      ∀ I : ℕ, F'[I]? = F[I]?.map (· + (f.map fun p =>
        if num p.1.1 p.1.2 = I then p.2 else 0).sum) := by
  have h := hasEff_foldlM (ok := fun F : List K => F.length = N) (obs := obsF) f
    (fun p F => (dofNum ntg p.1.1 p.1.2).bind fun g => if g ≠ -1 then addF F g p.2 else some F)
    (fun p (I : ℕ) => if num p.1.1 p.1.2 = I then p.2 else 0) (by
    intro p hp
    simp only [hn p hp, Option.bind_some]
    rcases hN p hp with h | ⟨I, hI, hIN⟩
    · simp only [h, ne_eq, not_true_eq_false, if_false]
      refine hasEff_skip.congr ?_
      funext a
      rw [if_neg (by omega)]; rfl
    · simp only [hI, if_pos (show (I : ℤ) ≠ -1 by omega)]
      refine (addF_eff hIN p.2).congr ?_
      funext a
      simp only [Nat.cast_inj, eq_comm (a := I)])
  obtain ⟨F', h1, h2, h3⟩ := h F hF
  refine ⟨F', h1, h2, fun I => ?_⟩
  rw [eff_entry hF h2 h3, sum_apply1]

example : asmKFe [⟨[(5 : ℚ)]⟩, ⟨[0]⟩, ⟨[0]⟩] ⟨2, 2, [1, -1, -1, 1]⟩ ⟨[2, 3]⟩ [[-1], [0], [1]]
    [[(0, 0)], [(0, 1)]] [0, 1] (LIL.new 2 2, [0, 0])
    = some (⟨2, 2, [[(0, 1)], []]⟩, [8, 0]) := by decide +kernel

/-! ### Lists of elements -/

/-- The data of one call of `Assembling`. -/
structure Job (K : Type) where
  Ke : Mat K
  Fe : Vec K
  nte : List (List (ℕ × ℕ))
  element : List ℕ

/-- Local dofs of a call. -/
def Job.dofs (j : Job K) : List (ℕ × ℕ × ℕ) := localDofs j.nte j.element

/-- Entry of the element matrix. -/
def Job.mat (j : Job K) (a b : ℕ) : K := (j.Ke.at? a b).getD 0

/-- Entry of the element vector. -/
def Job.rhs (j : Job K) (a : ℕ) : K := (j.Fe.at? a).getD 0

/-- Calls one after the other. -/
def asmJobs (u : List (Vec K)) (ntg : List (List ℤ)) (jobs : List (Job K))
    (st : LIL K × List K) : Option (LIL K × List K) :=
  jobs.foldlM (fun st j => asmKFe u j.Ke j.Fe ntg j.nte j.element st) st

/-- Everything a call reads exists and the equation numbers are -1 or below `N`. -/
structure Job.Ok (j : Job K) (u : List (Vec K)) (ntg : List (List ℤ)) (N : ℕ) : Prop where
  len : j.element.length ≤ j.nte.length
  num : ∀ p ∈ j.dofs, ∃ g, dofNum ntg p.1 p.2.1 = some g ∧ (g = -1 ∨ 0 ≤ g ∧ g < N)
  ke : ∀ p ∈ j.dofs, ∀ q ∈ j.dofs, (j.Ke.at? p.2.2 q.2.2).isSome
  fe : ∀ p ∈ j.dofs, (j.Fe.at? p.2.2).isSome
  u : ∀ p ∈ j.dofs, dofNum ntg p.1 p.2.1 = some (-1) → (nodal u p.1 p.2.1).isSome

/-- Equation number of a dof. -/
def numOf (ntg : List (List ℤ)) (n d : ℕ) : ℤ := (dofNum ntg n d).getD (-1)

/-- Value of a dof. -/
def valOf (u : List (Vec K)) (n d : ℕ) : K := (nodal u n d).getD 0

theorem Job.Ok.reads {j : Job K} {u : List (Vec K)} {ntg : List (List ℤ)} {N : ℕ}
    (h : j.Ok u ntg N) : Reads ntg u j.Ke j.dofs N (numOf ntg) (valOf u) j.mat := by
  refine ⟨?_, ?_, ?_, ?_⟩
  · intro p hp
    obtain ⟨g, hg, -⟩ := h.num p hp
    simp [numOf, hg]
  · intro p hp
    obtain ⟨g, hg, hr⟩ := h.num p hp
    rcases hr with rfl | ⟨h1, h2⟩
    · left; simp [numOf, hg]
    · right; exact ⟨g.toNat, by simp [numOf, hg, h1], by omega⟩
  · intro p hp q hq
    obtain ⟨x, hx⟩ := Option.isSome_iff_exists.1 (h.ke p hp q hq)
    simp [Job.mat, hx]
  · intro p hp hn
    obtain ⟨g, hg, -⟩ := h.num p hp
    have : g = -1 := by simpa [numOf, hg] using hn
    obtain ⟨x, hx⟩ := Option.isSome_iff_exists.1 (h.u p hp (by rw [hg, this]))
    simp [valOf, hx]

theorem asmJobs_eff {u : List (Vec K)} {ntg : List (List ℤ)} {N : ℕ} {jobs : List (Job K)}
    (h : ∀ j ∈ jobs, j.Ok u ntg N) :
    HasEff (okKF N) obsKF (asmJobs u ntg jobs)
      ((jobs.map fun j => contribK (numOf ntg) j.mat j.dofs).sum,
       (jobs.map fun j => contribF (numOf ntg) (valOf u) j.mat j.rhs j.dofs).sum) := by
  refine (hasEff_foldlM jobs _ _ fun j hj => asmKFe_eff ntg u j.Ke j.Fe N (numOf ntg) (valOf u)
    j.mat j.rhs (h j hj).len (h j hj).reads (fun p hp => ?_)).congr (sum_fst _ _)
  obtain ⟨x, hx⟩ := Option.isSome_iff_exists.1 ((h j hj).fe p hp)
  simp [Job.rhs, hx]

/-- **C24**: elements assembled in any order give the same matrix entries and the same vector. -/
theorem C24_order (u : List (Vec K)) (ntg : List (List ℤ)) (N : ℕ) (jobs jobs' : List (Job K))
    (hp : jobs.Perm jobs') (h : ∀ j ∈ jobs, j.Ok u ntg N) (A : LIL K) (F : List K) (hA : A.WF)
    (hb : A.InBounds) (hr : A.rows = N) (hc : A.cols = N) (hF : F.length = N) :
    ∃ A₁ A₂ F₁, asmJobs u ntg jobs (A, F) = some (A₁, F₁) ∧
      asmJobs u ntg jobs' (A, F) = some (A₂, F₁) ∧ ∀ I J, A₁.get I J = A₂.get I J := by
  obtain ⟨⟨A₁, F₁⟩, a1, a2, a3⟩ := asmJobs_eff h (A, F) ⟨⟨hA, hb, hr, hc⟩, hF⟩
  obtain ⟨⟨A₂, F₂⟩, b1, b2, b3⟩ := asmJobs_eff (fun j hj => h j (hp.mem_iff.2 hj)) (A, F)
    ⟨⟨hA, hb, hr, hc⟩, hF⟩
  have e1 : obsK A₁ = obsK A₂ := by
    have h1 := congrArg Prod.fst a3
    have h2 := congrArg Prod.fst b3
    simp only [obsKF, Prod.fst_add] at h1 h2
    rw [h1, h2, (hp.map _).sum_eq]
  have e2 : obsF F₁ = obsF F₂ := by
    have h1 := congrArg Prod.snd a3
    have h2 := congrArg Prod.snd b3
    simp only [obsKF, Prod.snd_add] at h1 h2
    rw [h1, h2, (hp.map _).sum_eq]
  have e3 : F₁ = F₂ := by
    apply List.ext_getElem?
    intro i
    by_cases hi : i < N
    · rw [entry_of_ok a2.2 hi, entry_of_ok b2.2 hi, e2]
    · have g1 := a2.2
      have g2 := b2.2
      simp only at g1 g2
      rw [List.getElem?_eq_none (by omega), List.getElem?_eq_none (by omega)]
  subst e3
  refine ⟨A₁, A₂, F₁, a1, b1, fun I J => ?_⟩
  by_cases hI : I < N
  · rw [get_of_ok a2.1 hI, get_of_ok b2.1 hI, e1]
  · rw [get_none a2.1.1 (by rw [a2.1.2.2.1]; exact hI),
      get_none b2.1.1 (by rw [b2.1.2.2.1]; exact hI)]

theorem sum_comm' {α β A : Type} [AddCommMonoid A] (L : List α) (M : List β) (f : α → β → A) :
    (L.map fun p => (M.map fun q => f p q).sum).sum
      = (M.map fun q => (L.map fun p => f p q).sum).sum := by
  induction L with
  | nil => simp
  | cons p L ih => simp only [List.map_cons, List.sum_cons, ih, List.sum_map_add]

theorem contribK_symm (L : List (ℕ × ℕ × ℕ))
    (hs : ∀ p ∈ L, ∀ q ∈ L, ke p.2.2 q.2.2 = ke q.2.2 p.2.2) (I J : ℕ) :
    contribK num ke L I J = contribK num ke L J I := by
  unfold contribK
  rw [sum_comm']
  refine congrArg List.sum (List.map_congr_left fun q hq => congrArg List.sum
    (List.map_congr_left fun p hp => ?_))
  rw [hs p hp q hq]
  exact if_congr and_comm rfl rfl

/-- **C24**: symmetric element matrices assembled into a symmetric matrix leave it symmetric. -/
theorem C24_symmetric (u : List (Vec K)) (ntg : List (List ℤ)) (N : ℕ) (jobs : List (Job K))
    (h : ∀ j ∈ jobs, j.Ok u ntg N)
    (hs : ∀ j ∈ jobs, ∀ p ∈ j.dofs, ∀ q ∈ j.dofs,
      j.Ke.at? p.2.2 q.2.2 = j.Ke.at? q.2.2 p.2.2)
    (A : LIL K) (F : List K) (hA : A.WF) (hb : A.InBounds) (hr : A.rows = N) (hc : A.cols = N)
    (hF : F.length = N) (hAs : ∀ I < N, ∀ J < N, A.get I J = A.get J I) :
    ∃ A' F', asmJobs u ntg jobs (A, F) = some (A', F') ∧
      ∀ I < N, ∀ J < N, A'.get I J = A'.get J I := by
  obtain ⟨⟨A', F'⟩, a1, a2, a3⟩ := asmJobs_eff h (A, F) ⟨⟨hA, hb, hr, hc⟩, hF⟩
  refine ⟨A', F', a1, fun I hI J hJ => ?_⟩
  have e1 := congrArg Prod.fst a3
  rw [eff_get ⟨hA, hb, hr, hc⟩ a2.1 e1 hI, eff_get ⟨hA, hb, hr, hc⟩ a2.1 e1 hJ, hAs I hI J hJ]
  congr 2
  funext x
  congr 1
  simp only [sum_apply1]
  refine congrArg List.sum (List.map_congr_left fun j hj => contribK_symm _ _ _ (fun p hp q hq => ?_)
    _ _)
  unfold Job.mat
  rw [hs j hj p hp q hq]

/-- Hypotheses of `C24_order` and `C24_symmetric` on an element with a fixed and a free dof. -/
example : (⟨⟨2, 2, [1, -1, -1, 1]⟩, ⟨[0, 3]⟩, [[(0, 0)], [(0, 1)]], [0, 1]⟩ : Job ℚ).Ok
    [⟨[5]⟩, ⟨[0]⟩, ⟨[0]⟩] [[-1], [0], [1]] 2 := by
  have hd : (⟨⟨2, 2, [1, -1, -1, 1]⟩, ⟨[0, 3]⟩, [[(0, 0)], [(0, 1)]], [0, 1]⟩ : Job ℚ).dofs
      = [(0, 0, 0), (1, 0, 1)] := by decide +kernel
  refine ⟨by decide, ?_, ?_, ?_, ?_⟩ <;> rw [hd]
  · intro p hp
    simp only [List.mem_cons, List.not_mem_nil, or_false] at hp
    rcases hp with rfl | rfl
    · exact ⟨-1, rfl, Or.inl rfl⟩
    · exact ⟨0, rfl, Or.inr ⟨le_refl _, by decide⟩⟩
  · decide +kernel
  · decide +kernel
  · decide +kernel

example (A F : _) (h : asmJobs [⟨[(5 : ℚ)]⟩, ⟨[0]⟩, ⟨[0]⟩] [[-1], [0], [1]]
      [⟨⟨2, 2, [1, -1, -1, 1]⟩, ⟨[0, 3]⟩, [[(0, 0)], [(0, 1)]], [1, 2]⟩,
       ⟨⟨2, 2, [1, -1, -1, 1]⟩, ⟨[0, 0]⟩, [[(0, 0)], [(0, 1)]], [0, 1]⟩]
      (LIL.new 2 2, List.replicate 2 0) = some (A, F)) :
    F = [5, 3] ∧ A.get 0 1 = some (-1) ∧ A.get 1 0 = some (-1) := by
  have e : asmJobs [⟨[(5 : ℚ)]⟩, ⟨[0]⟩, ⟨[0]⟩] [[-1], [0], [1]]
      [⟨⟨2, 2, [1, -1, -1, 1]⟩, ⟨[0, 3]⟩, [[(0, 0)], [(0, 1)]], [1, 2]⟩,
       ⟨⟨2, 2, [1, -1, -1, 1]⟩, ⟨[0, 0]⟩, [[(0, 0)], [(0, 1)]], [0, 1]⟩]
      (LIL.new 2 2, List.replicate 2 0)
      = some (⟨2, 2, [[(0, 2), (1, -1)], [(0, -1), (1, 1)]]⟩, [5, 3]) := by decide +kernel
  rw [e] at h
  cases h
  decide +kernel

/-- The Neumann overload drops the value given on a fixed dof. -/
example : asmNeumann [((0, 0), (7 : ℚ)), ((2, 0), 3), ((2, 0), 4)] [[-1], [0], [1]] [1, 1]
    = some [1, 8] := by decide +kernel

/-! ### C26 -/

theorem sum_ite_eq_list {α : Type} (L : List α) (f : α → K) (g : α → ℤ) (x : ℕ → K) (N : ℕ)
    (hg : ∀ q ∈ L, g q = -1 ∨ ∃ I : ℕ, g q = I ∧ I < N) :
    ∑ J ∈ Finset.range N, (L.map fun q => if g q = J then f q else 0).sum * x J
      = (L.map fun q => if g q = -1 then 0 else f q * x (g q).toNat).sum := by
  induction L with
  | nil => simp
  | cons q L ih =>
    simp only [List.map_cons, List.sum_cons, add_mul, Finset.sum_add_distrib]
    rw [ih fun r hr => hg r (List.mem_cons_of_mem _ hr)]
    congr 1
    rcases hg q (List.mem_cons_self ..) with h | ⟨I, hI, hIN⟩
    · rw [if_pos h]
      apply Finset.sum_eq_zero
      intro J _
      rw [if_neg (by omega), zero_mul]
    · rw [if_neg (by omega), hI, Int.toNat_natCast, Finset.sum_eq_single I]
      · rw [if_pos rfl]
      · intro J _ hJ; rw [if_neg (by omega), zero_mul]
      · intro hn; exact absurd (Finset.mem_range.2 hIN) hn

theorem range_sum_list {α : Type} (L : List α) (N : ℕ) (f : α → ℕ → K) :
    ∑ J ∈ Finset.range N, (L.map fun p => f p J).sum
      = (L.map fun p => ∑ J ∈ Finset.range N, f p J).sum := by
  induction L with
  | nil => simp
  | cons p L ih => simp [Finset.sum_add_distrib, ih]

/-- The difference between the two sides of equation `I` for one element. -/
theorem contrib_residual (L : List (ℕ × ℕ × ℕ)) (x : ℕ → K) (uu' : ℕ → ℕ → K) (I : ℕ)
    (hg : ∀ q ∈ L, num q.1 q.2.1 = -1 ∨ ∃ I : ℕ, num q.1 q.2.1 = I ∧ I < N)
    (hfree : ∀ q ∈ L, num q.1 q.2.1 ≠ -1 → uu' q.1 q.2.1 = x (num q.1 q.2.1).toNat)
    (hfix : ∀ q ∈ L, num q.1 q.2.1 = -1 → uu' q.1 q.2.1 = uu q.1 q.2.1) :
    ∑ J ∈ Finset.range N, contribK num ke L I J * x J - contribF num uu ke fe L I
      = (L.map fun p => if num p.1 p.2.1 = I then
          (L.map fun q => ke p.2.2 q.2.2 * uu' q.1 q.2.1).sum - fe p.2.2 else 0).sum := by
  have e1 : ∑ J ∈ Finset.range N, contribK num ke L I J * x J
      = (L.map fun p => if num p.1 p.2.1 = I then
        (L.map fun q => if num q.1 q.2.1 = -1 then 0 else
          ke p.2.2 q.2.2 * x (num q.1 q.2.1).toNat).sum else 0).sum := by
    unfold contribK
    simp only [← List.sum_map_mul_right]
    rw [range_sum_list]
    refine congrArg List.sum (List.map_congr_left fun p hp => ?_)
    by_cases h : num p.1 p.2.1 = I
    · rw [if_pos h, ← sum_ite_eq_list _ _ _ _ N hg]
      refine Finset.sum_congr rfl fun J _ => ?_
      rw [List.sum_map_mul_right]
      simp only [h, true_and]
    · rw [if_neg h]
      apply Finset.sum_eq_zero
      intro J _
      rw [List.sum_map_mul_right, sum_zero' _ _ fun q _ => if_neg (fun c => h c.1), zero_mul]
  rw [e1]
  unfold contribF
  have hsub : ∀ (M : List (ℕ × ℕ × ℕ)) (f g : ℕ × ℕ × ℕ → K),
      (M.map f).sum - (M.map g).sum = (M.map fun p => f p - g p).sum := by
    intro M f g
    induction M with
    | nil => simp
    | cons p M ih =>
      simp only [List.map_cons, List.sum_cons, ← ih]
      abel
  rw [hsub]
  refine congrArg List.sum (List.map_congr_left fun p hp => ?_)
  by_cases h : num p.1 p.2.1 = I
  · rw [if_pos h, if_pos h, if_pos h, sub_sub_eq_add_sub, ← List.sum_map_add]
    congr 1
    refine congrArg List.sum (List.map_congr_left fun q hq => ?_)
    by_cases hq1 : num q.1 q.2.1 = -1
    · rw [if_pos hq1, if_pos hq1, hfix q hq hq1, zero_add]
    · rw [if_neg hq1, if_neg hq1, hfree q hq hq1, add_zero]
  · rw [if_neg h, if_neg h, if_neg h, sub_zero]

theorem holds_new_ok (N : ℕ) : okK N (LIL.new N N : LIL K) := by
  refine ⟨(LIL.holds_new N N).1, ?_, rfl, rfl⟩
  intro row hrow p hp
  have := List.eq_of_mem_replicate hrow
  subst this
  simp at hp

theorem obsK_new (N : ℕ) : obsK (LIL.new N N : LIL K) = 0 := by
  funext i j
  unfold obsK LIL.get LIL.new
  by_cases h : i < N
  · simp [h, rowGet]
  · simp [h]

theorem obsF_zero (N : ℕ) : obsF (List.replicate N (0 : K)) = 0 := by
  funext i
  unfold obsF
  by_cases h : i < N <;> simp [h]

/-- The product with an assembled matrix, row by row. -/
theorem mulVec_row {N : ℕ} {A : LIL K} (h : okK N A) {x F : List K} (hx : A.mulVec x = some F)
    {I : ℕ} (hI : I < N) : ∑ J ∈ Finset.range N, obsK A I J * obsF x J = obsF F I := by
  obtain ⟨h1, h2, h3, h4⟩ := h
  have hlen : A.cols = x.length := by
    by_contra hc
    rw [C08_lil_mulVec_fails A x hc] at hx
    cases hx
  subst h4
  have hxe : x = List.ofFn (fun i : Fin A.cols => obsF x i) := by
    apply List.ext_getElem
    · simp [hlen]
    · intro i hi1 hi2
      simp [obsF, List.getElem?_eq_getElem hi1]
  rw [hxe, C08_lil_mulVec A h1 h2] at hx
  obtain rfl := Option.some.inj hx
  have hI' : I < A.rows := by omega
  unfold obsF
  rw [List.getElem?_eq_getElem (by simpa using hI'), List.getElem_ofFn]
  simp only [Option.getD_some]
  rw [Matrix.mulVec, dotProduct, ← Fin.sum_univ_eq_sum_range (fun J => obsK A I J * x[J]?.getD 0)]
  rfl

/-- **C26**: if `SetDirichlet`, `Renumbering` and `Assembling` produce `K`, `F` and `x` satisfies
`K x = F`, then the displacements after `Disassembling` hold the prescribed values, and the
full-length residual vanishes at every free dof: over all elements and all local dofs at that dof,
the sum of `(Ke ue - Fe)` is zero. -/
theorem C26_full_system (u₀ u u' : List (Vec K)) (t₀ t₁ : List (List ℤ))
    (bc : List ((ℕ × ℕ) × K)) (jobs : List (Job K)) (A : LIL K) (F x : List K)
    (hbc : setDirichlet u₀ t₀ bc = some (u, t₁))
    (hok : ∀ j ∈ jobs, j.Ok u (renumbering t₁).1 (renumbering t₁).2)
    (hasm : asmJobs u (renumbering t₁).1 jobs
      (LIL.new (renumbering t₁).2 (renumbering t₁).2, List.replicate (renumbering t₁).2 0)
      = some (A, F))
    (hx : A.mulVec x = some F)
    (hdis : disassembling u x (renumbering t₁).1 = some u') :
    (∀ n d v, lastValue bc n d = some v → nodal u' n d = some v) ∧
    ∀ n d g, dofNum t₀ n d = some g → g ≠ -1 → (n, d) ∉ bc.map Prod.fst →
      (jobs.map fun j => (j.dofs.map fun p => if p.1 = n ∧ p.2.1 = d then
        (j.dofs.map fun q => j.mat p.2.2 q.2.2 * valOf u' q.1 q.2.1).sum - j.rhs p.2.2
        else 0).sum).sum = 0 := by
  obtain ⟨-, -, hset⟩ := C21_setDirichlet u₀ u t₀ t₁ bc hbc
  obtain ⟨-, hd⟩ := C25_disassembling u u' x _ hdis
  obtain ⟨r1, r2, -, -⟩ := C20_renumbering t₁
  set t := (renumbering t₁).1 with ht
  set N := (renumbering t₁).2 with hN
  refine ⟨?_, ?_⟩
  · intro n d v hv
    obtain ⟨s1, s2⟩ := hset n d
    rw [hv] at s2
    have hmem : (n, d) ∈ bc.map Prod.fst := by
      unfold lastValue at hv
      obtain ⟨p, hp, -⟩ := Option.map_eq_some_iff.1 hv
      have h1 := List.mem_of_find?_eq_some hp
      have h2 := List.find?_some hp
      exact List.mem_map.2 ⟨p, List.mem_reverse.1 h1, by simpa using h2⟩
    rw [if_pos hmem] at s1
    rw [hd, (r2 n d).2 s1]
    simpa using s2
  · intro n d g hg hg1 hbcn
    -- the equation of this dof
    have ht1 : dofNum t₁ n d = some g := by rw [(hset n d).1, if_neg hbcn, hg]
    have hsome : (dofNum t n d).isSome := by rw [isSome_of_lengths r1, ht1]; rfl
    obtain ⟨I', hI'⟩ := Option.isSome_iff_exists.1 hsome
    have hI'1 : I' ≠ -1 := by
      rintro rfl
      rw [r2 n d, ht1] at hI'
      exact hg1 (Option.some.inj hI')
    obtain ⟨hI0, hIN⟩ := (C20_range t₁ I' hI'1).1 ⟨n, d, hI'⟩
    obtain ⟨I, rfl⟩ := Int.eq_ofNat_of_zero_le hI0
    have hIN : I < N := by omega
    have hinj : ∀ n' d', dofNum t n' d' = some (I : ℤ) → n' = n ∧ d' = d := by
      intro n' d' h'
      by_contra hne
      rcases lt_trichotomy n' n with h1 | h1 | h1
      · have := C20_increasing t₁ _ _ _ _ _ _ h' hI' (by omega) (by omega) (Or.inl h1)
        omega
      · rcases lt_trichotomy d' d with h2 | h2 | h2
        · have := C20_increasing t₁ _ _ _ _ _ _ h' hI' (by omega) (by omega) (Or.inr ⟨h1, h2⟩)
          omega
        · exact hne ⟨h1, h2⟩
        · have := C20_increasing t₁ _ _ _ _ _ _ hI' h' (by omega) (by omega)
            (Or.inr ⟨h1.symm, h2⟩)
          omega
      · have := C20_increasing t₁ _ _ _ _ _ _ hI' h' (by omega) (by omega) (Or.inl h1)
        omega
    obtain ⟨⟨A₁, F₁⟩, a1, a2, a3⟩ := asmJobs_eff hok
      (LIL.new N N, List.replicate N 0) ⟨holds_new_ok N, by simp⟩
    rw [hasm] at a1
    obtain ⟨rfl, rfl⟩ := Prod.mk.inj (Option.some.inj a1)
    have e1 : obsK A = (jobs.map fun j => contribK (numOf t) j.mat j.dofs).sum := by
      have := congrArg Prod.fst a3
      simpa [obsKF, obsK_new] using this
    have e2 : obsF F = (jobs.map fun j => contribF (numOf t) (valOf u) j.mat j.rhs j.dofs).sum := by
      have := congrArg Prod.snd a3
      simpa [obsKF, obsF_zero] using this
    have heq := mulVec_row a2.1 hx hIN
    rw [e1, e2] at heq
    simp only [sum_apply1, ← List.sum_map_mul_right] at heq
    rw [range_sum_list] at heq
    have hsub : ∀ (M : List (Job K)) (f g : Job K → K),
        (M.map f).sum = (M.map g).sum → (M.map fun p => f p - g p).sum = 0 := by
      intro M f g h
      have : (M.map fun p => f p - g p).sum = (M.map f).sum - (M.map g).sum := by
        clear h
        induction M with
        | nil => simp
        | cons p M ih => simp only [List.map_cons, List.sum_cons, ih]; abel
      rw [this, h, sub_self]
    refine Eq.trans ?_ (hsub _ _ _ heq)
    refine congrArg List.sum (List.map_congr_left fun j hj => ?_)
    have R := (hok j hj).reads
    have hval : ∀ q ∈ j.dofs, nodal u' q.1 q.2.1 = if numOf t q.1 q.2.1 = -1
        then nodal u q.1 q.2.1 else x[(numOf t q.1 q.2.1).toNat]? := by
      intro q hq
      rw [hd, R.num_eq q hq]
    rw [contrib_residual N (numOf t) (valOf u) j.mat j.rhs j.dofs (obsF x) (valOf u') I R.num_range]
    · refine congrArg List.sum (List.map_congr_left fun p hp => ?_)
      by_cases hc : p.1 = n ∧ p.2.1 = d
      · have hI : numOf t p.1 p.2.1 = I := ?_
        · rw [if_pos hc, if_pos hI]
        have := R.num_eq p hp
        rw [hc.1, hc.2, hI'] at this
        rw [hc.1, hc.2]
        exact (Option.some.inj this).symm
      · have hI : ¬ numOf t p.1 p.2.1 = I := ?_
        · rw [if_neg hc, if_neg hI]
        intro h
        have := R.num_eq p hp
        rw [h] at this
        exact hc (hinj _ _ this)
    · intro q hq hne
      unfold valOf
      rw [hval q hq, if_neg hne]
      rfl
    · intro q hq he
      unfold valOf
      rw [hval q hq, if_pos he]

/-- A bar of two springs, fixed on the left at 5 and loaded on the right: the hypotheses of
`C26_full_system` are met and the solution is `[5, 8, 11]`. -/
example : setDirichlet [⟨[(0 : ℚ)]⟩, ⟨[0]⟩, ⟨[0]⟩] [[0], [0], [0]] [((0, 0), 5)]
      = some ([⟨[5]⟩, ⟨[0]⟩, ⟨[0]⟩], [[-1], [0], [0]]) ∧
    renumbering [[-1], [0], [0]] = ([[-1], [0], [1]], 2) ∧
    asmJobs [⟨[(5 : ℚ)]⟩, ⟨[0]⟩, ⟨[0]⟩] [[-1], [0], [1]]
      [⟨⟨2, 2, [1, -1, -1, 1]⟩, ⟨[0, 0]⟩, [[(0, 0)], [(0, 1)]], [0, 1]⟩,
       ⟨⟨2, 2, [1, -1, -1, 1]⟩, ⟨[0, 3]⟩, [[(0, 0)], [(0, 1)]], [1, 2]⟩]
      (LIL.new 2 2, List.replicate 2 0)
      = some (⟨2, 2, [[(0, 2), (1, -1)], [(0, -1), (1, 1)]]⟩, [5, 3]) ∧
    (⟨2, 2, [[(0, 2), (1, -1)], [(0, -1), (1, 1)]]⟩ : LIL ℚ).mulVec [8, 11] = some [5, 3] ∧
    disassembling [⟨[(5 : ℚ)]⟩, ⟨[0]⟩, ⟨[0]⟩] [8, 11] [[-1], [0], [1]]
      = some [⟨[5]⟩, ⟨[8]⟩, ⟨[11]⟩] := by
  refine ⟨?_, ?_, ?_, ?_, ?_⟩ <;> decide +kernel

end Pansfem
