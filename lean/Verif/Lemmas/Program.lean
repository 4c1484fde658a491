/-
The system an analysis program assembles, solves and disassembles.
-/
import Verif.Spec.Program
import Verif.Lemmas.ShiftLanczos
import Verif.Props.C11_CG

namespace Pansfem

variable {K : Type} [Ring K]

/-- Equation numbers are -1 or below `N`. -/
def Numbered (t : List (List ℤ)) (N : ℕ) : Prop :=
  ∀ n d g, dofNum t n d = some g → g = -1 ∨ 0 ≤ g ∧ g < N

theorem renumbering_numbered (t : List (List ℤ)) : Numbered (renumbering t).1 (renumbering t).2 := by
  intro n d g h
  by_cases hg : g = -1
  · exact Or.inl hg
  · exact Or.inr ((C20_range t g hg).1 ⟨n, d, h⟩)

section
variable {u : List (Vec K)} {t : List (List ℤ)} {N : ℕ}

theorem AsmCall.Fits.num {c : AsmCall K} (h : c.Fits t u) :
    ∀ p ∈ c.dofs, dofNum t p.1 p.2.1 = some (numOf t p.1 p.2.1) := by
  intro p hp
  obtain ⟨g, hg⟩ := Option.isSome_iff_exists.1 (h.1 p hp).1
  simp [numOf, hg]

theorem AsmCall.Fits.range {c : AsmCall K} (hN : Numbered t N) (h : c.Fits t u) :
    ∀ p ∈ c.dofs, numOf t p.1 p.2.1 = -1 ∨ ∃ I : ℕ, numOf t p.1 p.2.1 = I ∧ I < N := by
  intro p hp
  rcases hN _ _ _ (h.num p hp) with h1 | ⟨h1, h2⟩
  · exact Or.inl h1
  · exact Or.inr ⟨(numOf t p.1 p.2.1).toNat, by omega, by omega⟩

theorem AsmCall.Fits.val {c : AsmCall K} (h : c.Fits t u) :
    ∀ p ∈ c.dofs, Pansfem.nodal u p.1 p.2.1 = some (valOf u p.1 p.2.1) := by
  intro p hp
  obtain ⟨g, hg⟩ := Option.isSome_iff_exists.1 (h.1 p hp).2
  simp [valOf, hg]

theorem AsmCall.Fits.reads {c : AsmCall K} (hN : Numbered t N) (h : c.Fits t u) (Ke : Mat K)
    (hke : ∀ p ∈ c.dofs, ∀ q ∈ c.dofs, Ke.at? p.2.2 q.2.2 = some (c.mat p.2.2 q.2.2)) :
    Reads t u Ke c.dofs N (numOf t) (valOf u) c.mat :=
  ⟨h.num, h.range hN, hke, fun p hp _ => h.val p hp⟩

theorem getD_of_isSome {o : Option K} (h : o.isSome) : o = some (o.getD 0) := by
  cases o with
  | none => cases h
  | some x => rfl

theorem contribK_zero (num : ℕ → ℕ → ℤ) (ke : ℕ → ℕ → K) (L : List (ℕ × ℕ × ℕ)) (h : ∀ a b, ke a b = 0) :
    contribK num ke L = 0 := by
  funext I J
  unfold contribK
  simp only [h, ite_self, Pi.zero_apply]
  simp

theorem contribF_zero (num : ℕ → ℕ → ℤ) (uu ke : ℕ → ℕ → K) (fe : ℕ → K) (L : List (ℕ × ℕ × ℕ))
    (h : ∀ a b, ke a b = 0) (I : ℕ) :
    contribF num uu ke fe L I = (L.map fun p => if num p.1 p.2.1 = I then fe p.2.2 else 0).sum := by
  unfold contribF
  refine congrArg List.sum (List.map_congr_left fun p _ => ?_)
  simp only [h, zero_mul, ite_self, List.map_const', List.sum_replicate, smul_zero, sub_zero]

/-- What a call adds. -/
theorem asmCall_eff {c : AsmCall K} (hN : Numbered t N) (h : c.Fits t u) :
    HasEff (okKF N) obsKF (c.run u t)
      (contribK (numOf t) c.mat c.dofs, contribF (numOf t) (valOf u) c.mat c.rhs c.dofs) := by
  cases c with
  | matrix Ke nte element =>
    obtain ⟨-, hl, hke⟩ := id h
    exact asmKF_eff t u Ke N (numOf t) (valOf u) _ hl
      (h.reads hN Ke fun p hp q hq => getD_of_isSome (hke p hp q hq))
  | both Ke Fe nte element =>
    obtain ⟨-, hl, hke, hfe⟩ := id h
    exact asmKFe_eff t u Ke Fe N (numOf t) (valOf u) _ _ hl
      (h.reads hN Ke fun p hp q hq => getD_of_isSome (hke p hp q hq))
      fun p hp => getD_of_isSome (hfe p hp)
  | fields Ke ntes elements =>
    obtain ⟨-, hl, hke⟩ := id h
    have R := h.reads hN Ke fun p hp q hq => getD_of_isSome (hke p hp q hq)
    have h := (hasEff_foldlM (localDofs2 ntes elements) _ _ fun p hp => asmKF_row R hp).congr
      ((sum_fst _ _).trans (congrArg₂ Prod.mk (rowK_sum (numOf t) _ _) (rowFu_sum (numOf t) (valOf u) _ _)))
    intro st hst
    obtain ⟨st', h1, h2⟩ := h st hst
    refine ⟨st', ?_, h2⟩
    refine Eq.trans ?_ h1
    show asmKF2 u Ke t ntes elements st = _
    unfold asmKF2
    rw [forDofs2_eq _ _ hl]
    simp only [forDofs2_eq _ _ hl, Option.bind_eq_bind, Option.pure_def]
    rfl
  | load Fe nte element =>
    obtain ⟨-, hl, hfe⟩ := id h
    rw [contribK_zero (numOf t) (AsmCall.load Fe nte element).mat _ fun a b => rfl]
    have hF : HasEff (fun F : List K => F.length = N) obsF (asmFe Fe t nte element)
        (contribF (numOf t) (valOf u) (AsmCall.load Fe nte element).mat (AsmCall.load Fe nte element).rhs
          (AsmCall.load Fe nte element).dofs) := by
      intro F hF
      obtain ⟨F', h1, h2, h3⟩ := C23_Fe t Fe N (numOf t) (AsmCall.load Fe nte element).rhs nte element hl h.num
        (h.range hN) (fun p hp => getD_of_isSome (hfe p hp)) F hF
      refine ⟨F', h1, h2, ?_⟩
      funext I
      rw [Pi.add_apply, contribF_zero _ _ (AsmCall.load Fe nte element).mat _ _ (fun _ _ => rfl)]
      unfold obsF
      rw [h3]
      by_cases hI : I < F.length
      · rw [List.getElem?_eq_getElem hI]; rfl
      · rw [List.getElem?_eq_none (by omega)]
        simp only [Option.map_none, Option.getD_none, zero_add]
        symm
        apply sum_zero'
        intro p hp
        rw [if_neg]
        intro hc
        rcases h.range hN p hp with h5 | ⟨J, h5, h6⟩ <;> omega
    have := liftF_eff hF
    intro st hst
    obtain ⟨st', h1, h2⟩ := this st hst
    exact ⟨st', h1, h2⟩
  | nodal q =>
    rw [contribK_zero (numOf t) (AsmCall.nodal q).mat _ fun a b => rfl]
    have hmem : ∀ p ∈ q, (dofNum t p.1.1 p.1.2).isSome := by
      intro p hp
      obtain ⟨i, hi, rfl⟩ := List.mem_iff_getElem.1 hp
      refine (h.1 (q[i].1.1, q[i].1.2, i) ?_).1
      refine List.mem_map.2 ⟨(q[i], i), ?_, rfl⟩
      rw [List.mem_zipIdx_iff_getElem?]
      simp [hi]
    have hnum : ∀ p ∈ q, dofNum t p.1.1 p.1.2 = some (numOf t p.1.1 p.1.2) := by
      intro p hp
      obtain ⟨g, hg⟩ := Option.isSome_iff_exists.1 (hmem p hp)
      simp [numOf, hg]
    have hr : ∀ p ∈ q, numOf t p.1.1 p.1.2 = -1 ∨ ∃ I : ℕ, numOf t p.1.1 p.1.2 = I ∧ I < N := by
      intro p hp
      rcases hN _ _ _ (hnum p hp) with h1 | ⟨h1, h2⟩
      · exact Or.inl h1
      · exact Or.inr ⟨(numOf t p.1.1 p.1.2).toNat, by omega, by omega⟩
    have hF : HasEff (fun F : List K => F.length = N) obsF (asmNeumann q t)
        (contribF (numOf t) (valOf u) (AsmCall.nodal q).mat (AsmCall.nodal q).rhs (AsmCall.nodal q).dofs) := by
      intro F hF
      obtain ⟨F', h1, h2, h3⟩ := C23_neumann t N (numOf t) q hnum hr F hF
      refine ⟨F', h1, h2, ?_⟩
      have hsum : ∀ I : ℕ, contribF (numOf t) (valOf u) (AsmCall.nodal q).mat (AsmCall.nodal q).rhs
          (AsmCall.nodal q).dofs I = (q.map fun p => if numOf t p.1.1 p.1.2 = I then p.2 else 0).sum := by
        intro I
        rw [contribF_zero _ _ (AsmCall.nodal q).mat _ _ (fun _ _ => rfl)]
        have e : q.map (fun p => if numOf t p.1.1 p.1.2 = (I : ℤ) then p.2 else 0)
            = (q.zipIdx.map Prod.fst).map (fun p => if numOf t p.1.1 p.1.2 = (I : ℤ) then p.2 else 0) := by
          rw [List.zipIdx_map_fst]
        rw [e]
        unfold AsmCall.dofs
        rw [List.map_map, List.map_map]
        refine congrArg List.sum (List.map_congr_left fun p hp => ?_)
        have := List.mem_zipIdx_iff_getElem?.1 hp
        simp only [Function.comp_apply, AsmCall.rhs, this, Option.map_some, Option.getD_some]
      funext I
      rw [Pi.add_apply, hsum]
      unfold obsF
      rw [h3]
      by_cases hI : I < F.length
      · rw [List.getElem?_eq_getElem hI]; rfl
      · rw [List.getElem?_eq_none (by omega)]
        simp only [Option.map_none, Option.getD_none, zero_add]
        symm
        apply sum_zero'
        intro p hp
        rw [if_neg]
        intro hc
        rcases hr p hp with h5 | ⟨J, h5, h6⟩ <;> omega
    have := liftF_eff hF
    intro st hst
    obtain ⟨st', h1, h2⟩ := this st hst
    exact ⟨st', h1, h2⟩

/-- Starting from empty matrix and vector. -/
theorem asmCalls_system (hN : Numbered t N) {calls : List (AsmCall K)} (h : ∀ c ∈ calls, c.Fits t u) :
    ∃ A F, asmCalls u t calls (LIL.new N N, List.replicate N 0) = some (A, F) ∧ okK N A ∧ F.length = N ∧
      (∀ I J, obsK A I J = (calls.map fun c => contribK (numOf t) c.mat c.dofs I J).sum) ∧
      ∀ I, obsF F I = (calls.map fun c => contribF (numOf t) (valOf u) c.mat c.rhs c.dofs I).sum := by
  obtain ⟨⟨A, F⟩, h1, h2, h3⟩ := hasEff_foldlM calls _ _ (fun c hc => asmCall_eff hN (h c hc))
    (LIL.new N N, List.replicate N 0) ⟨holds_new_ok N, by simp⟩
  rw [sum_fst] at h3
  refine ⟨A, F, h1, h2.1, h2.2, fun I J => ?_, fun I => ?_⟩
  · have := congrArg Prod.fst h3
    simp only [obsKF, Prod.fst_add, obsK_new, zero_add] at this
    rw [this, sum_apply1, sum_apply1]
  · have := congrArg Prod.snd h3
    simp only [obsKF, Prod.snd_add, obsF_zero, zero_add] at this
    rw [this, sum_apply1]

/-- The residual of equation `I`: over all dofs numbered `I`. -/
def eqResidual (t : List (List ℤ)) (calls : List (AsmCall K)) (v : ℕ → ℕ → K) (I : ℕ) : K :=
  (calls.map fun c => (c.dofs.map fun p => if numOf t p.1 p.2.1 = I then
    (c.dofs.map fun q => c.mat p.2.2 q.2.2 * v q.1 q.2.1).sum - c.rhs p.2.2 else 0).sum).sum

/-- The field with the solution at the free dofs and the stored values elsewhere. -/
def spread (t : List (List ℤ)) (w : ℕ → ℕ → K) (x : ℕ → K) (n d : ℕ) : K :=
  if numOf t n d = -1 then w n d else x (numOf t n d).toNat

theorem sum_sub_list {α : Type} (M : List α) (f g : α → K) :
    (M.map f).sum - (M.map g).sum = (M.map fun p => f p - g p).sum := by
  induction M with
  | nil => simp
  | cons p M ih =>
    simp only [List.map_cons, List.sum_cons, ← ih]
    abel

theorem system_residual (hN : Numbered t N) {calls : List (AsmCall K)} (h : ∀ c ∈ calls, c.Fits t u)
    (x : ℕ → K) (w : ℕ → ℕ → K) (hw : ∀ n d, numOf t n d = -1 → w n d = valOf u n d) (I : ℕ) :
    ∑ J ∈ Finset.range N, (calls.map fun c => contribK (numOf t) c.mat c.dofs I J).sum * x J
      - (calls.map fun c => contribF (numOf t) (valOf u) c.mat c.rhs c.dofs I).sum
      = eqResidual t calls (spread t w x) I := by
  simp only [← List.sum_map_mul_right]
  rw [range_sum_list, sum_sub_list]
  unfold eqResidual
  refine congrArg List.sum (List.map_congr_left fun c hc => ?_)
  rw [contrib_residual N (numOf t) (valOf u) c.mat c.rhs c.dofs x (spread t w x) I ((h c hc).range hN)]
  · intro q _ hne
    rw [spread, if_neg hne]
  · intro q _ he
    rw [spread, if_pos he, hw _ _ he]

end

/-! ### Energy -/

theorem sum_pick {α : Type} (L : List α) (f : α → K) (g : α → ℤ) (x : ℕ → K) (N : ℕ)
    (hg : ∀ q ∈ L, g q = -1 ∨ ∃ I : ℕ, g q = I ∧ I < N) :
    ∑ I ∈ Finset.range N, x I * (L.map fun q => if g q = I then f q else 0).sum
      = (L.map fun q => if g q = -1 then 0 else x (g q).toNat * f q).sum := by
  induction L with
  | nil => simp
  | cons q L ih =>
    simp only [List.map_cons, List.sum_cons, mul_add, Finset.sum_add_distrib]
    rw [ih fun r hr => hg r (List.mem_cons_of_mem _ hr)]
    congr 1
    rcases hg q (List.mem_cons_self ..) with h | ⟨I, hI, hIN⟩
    · rw [if_pos h]
      apply Finset.sum_eq_zero
      intro J _
      rw [if_neg (by omega), mul_zero]
    · rw [if_neg (by omega), hI, Int.toNat_natCast, Finset.sum_eq_single I]
      · rw [if_pos rfl]
      · intro J _ hJ; rw [if_neg (by omega), mul_zero]
      · intro hn; exact absurd (Finset.mem_range.2 hIN) hn

theorem list_sum_mul_left {α : Type} (L : List α) (a : K) (f : α → K) :
    a * (L.map f).sum = (L.map fun c => a * f c).sum := (List.sum_map_mul_left ..).symm

/-- The quadratic form of the assembled matrix is the energy of the field that vanishes at the fixed dofs. -/
theorem system_energy {t : List (List ℤ)} {u : List (Vec K)} {N : ℕ} (hN : Numbered t N)
    {calls : List (AsmCall K)} (h : ∀ c ∈ calls, c.Fits t u) (x y : ℕ → K) :
    ∑ I ∈ Finset.range N, y I * ∑ J ∈ Finset.range N,
        (calls.map fun c => contribK (numOf t) c.mat c.dofs I J).sum * x J
      = energy calls (spread t (fun _ _ => 0) y) (spread t (fun _ _ => 0) x) := by
  have h1 : ∀ I, ∑ J ∈ Finset.range N, (calls.map fun c => contribK (numOf t) c.mat c.dofs I J).sum * x J
      = (calls.map fun c => (c.dofs.map fun p => if numOf t p.1 p.2.1 = I then
          (c.dofs.map fun q => c.mat p.2.2 q.2.2 * spread t (fun _ _ => 0) x q.1 q.2.1).sum else 0).sum).sum := by
    intro I
    simp only [← List.sum_map_mul_right]
    rw [range_sum_list]
    refine congrArg List.sum (List.map_congr_left fun c hc => ?_)
    have := contrib_residual N (numOf t) (fun _ _ => 0) c.mat (fun _ => 0) c.dofs x
      (spread t (fun _ _ => 0) x) I ((h c hc).range hN) (fun q _ hne => by rw [spread, if_neg hne])
      (fun q _ he => by rw [spread, if_pos he])
    have hF : contribF (numOf t) (fun _ _ => 0) c.mat (fun _ => 0) c.dofs I = 0 := by
      unfold contribF
      apply sum_zero'
      intro p _
      simp
    rw [hF, sub_zero] at this
    rw [this]
    simp only [sub_zero]
  simp only [h1]
  simp only [list_sum_mul_left calls]
  rw [range_sum_list]
  unfold energy
  refine congrArg List.sum (List.map_congr_left fun c hc => ?_)
  rw [sum_pick _ _ _ _ _ ((h c hc).range hN)]
  refine congrArg List.sum (List.map_congr_left fun p _ => ?_)
  by_cases hp : numOf t p.1 p.2.1 = -1
  · rw [if_pos hp, spread, if_pos hp, zero_mul]
  · rw [if_neg hp, spread, if_neg hp]

end Pansfem
