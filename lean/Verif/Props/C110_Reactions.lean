/-
C110: element vectors and reaction forces.
-/
import Verif.Spec.ProgramPost
import Verif.Lemmas.ProgramPost
import Verif.Props.C33_RigidMotions
import Verif.Props.C108_StaticAnalysis
import Verif.Props.C109_Solvable

namespace Pansfem

variable {K : Type}

/-! ### Element vectors -/

/-- **C110**: `ElementVector` has one entry per table entry and holds the nodal values at the local indices, if
these are distinct and below the number of entries. -/
theorem C110_elementVector [Zero K] (u : List (Vec K)) (nte : List (List (ℕ × ℕ))) (element : List ℕ)
    (hl : nte.length ≤ element.length) (hu : ∀ p ∈ localDofs nte element, (nodal u p.1 p.2.1).isSome)
    (hnd : ((localDofs nte element).map fun p => p.2.2).Nodup)
    (hlt : ∀ p ∈ localDofs nte element, p.2.2 < (localDofs nte element).length) :
    ∃ v, elementVector u nte element = some v ∧ v.size = (localDofs nte element).length ∧
      ∀ p ∈ localDofs nte element, v.at? (p.2.2 : ℕ) = nodal u p.1 p.2.1 := by
  rw [elementVector_eq u nte element hl]
  obtain ⟨v, h1, h2, h3, -⟩ := putAll_spec u (localDofs nte element) (Vec.zeros (nte.map List.length).sum) hu hnd
    (by rw [← localDofs_length hl]; simpa [Vec.zeros, Vec.size] using hlt)
  exact ⟨v, h1, by rw [h2, ← localDofs_length hl]; simp [Vec.zeros, Vec.size], h3⟩

/-- **C110**: the same for several node lists. -/
theorem C110_elementVector2 [Zero K] (u : List (Vec K)) (ntes : List (List (List (ℕ × ℕ)))) (elements : List (List ℕ))
    (hl : List.Forall₂ (fun (el : List ℕ) (nte : List (List (ℕ × ℕ))) => nte.length ≤ el.length) elements ntes)
    (hu : ∀ p ∈ localDofs2 ntes elements, (nodal u p.1 p.2.1).isSome)
    (hnd : ((localDofs2 ntes elements).map fun p => p.2.2).Nodup)
    (hlt : ∀ p ∈ localDofs2 ntes elements, p.2.2 < (localDofs2 ntes elements).length) :
    ∃ v, elementVector2 u ntes elements = some v ∧ v.size = (localDofs2 ntes elements).length ∧
      ∀ p ∈ localDofs2 ntes elements, v.at? (p.2.2 : ℕ) = nodal u p.1 p.2.1 := by
  rw [elementVector2_eq u ntes elements hl]
  obtain ⟨v, h1, h2, h3, -⟩ := putAll_spec u (localDofs2 ntes elements)
    (Vec.zeros (ntes.map fun nte => (nte.map List.length).sum).sum) hu hnd
    (by rw [← localDofs2_length hl]; simpa [Vec.zeros, Vec.size] using hlt)
  exact ⟨v, h1, by rw [h2, ← localDofs2_length hl]; simp [Vec.zeros, Vec.size], h3⟩

example : elementVector [⟨[(1 : ℚ), 2]⟩, ⟨[3, 4]⟩, ⟨[5, 6]⟩] [[(0, 0), (1, 1)], [(0, 2), (1, 3)]] [2, 0] =
    some ⟨[5, 6, 1, 2]⟩ := by decide +kernel

example : elementVector2 [⟨[(1 : ℚ), 2, 7]⟩, ⟨[3, 4, 8]⟩] [[[(0, 0), (1, 1)], [(0, 2), (1, 3)]], [[(2, 4)]]]
    [[1, 0], [0]] = some ⟨[3, 4, 1, 2, 7]⟩ := by decide +kernel

/-! ### Element forces -/

section
variable [Ring K] {it : ElemData K} {t : List (List ℤ)} {u : List (Vec K)}

theorem ElemData.Square.lt (h : it.Square) : ∀ p ∈ localDofs it.nte it.element,
    p.2.2 < (localDofs it.nte it.element).length := fun p hp =>
  List.mem_range.1 (h.2.1.mem_iff.1 (List.mem_map.2 ⟨p, hp, rfl⟩))

theorem ElemData.Square.ex (h : it.Square) {i : ℕ} (hi : i < (localDofs it.nte it.element).length) :
    ∃ p ∈ localDofs it.nte it.element, p.2.2 = i := by
  have := h.2.1.mem_iff.2 (List.mem_range.2 hi)
  obtain ⟨p, hp, e⟩ := List.mem_map.1 this
  exact ⟨p, hp, e⟩

/-- The product of element matrix and element vector. -/
theorem element_force (h : it.Square) (hf : it.call.Fits t u) :
    ∃ ue f, elementVector u it.nte it.element = some ue ∧ it.Ke.mulVec ue = some f ∧
      ue.size = (localDofs it.nte it.element).length ∧ f.size = (localDofs it.nte it.element).length ∧
      (∀ p ∈ localDofs it.nte it.element, ue.at? (p.2.2 : ℕ) = some (valOf u p.1 p.2.1)) ∧
      ∀ p ∈ localDofs it.nte it.element, f.at? (p.2.2 : ℕ) =
        some ((it.call.dofs.map fun q => it.call.mat p.2.2 q.2.2 * valOf u q.1 q.2.1).sum) := by
  obtain ⟨ue, h1, h2, h3⟩ := C110_elementVector u it.nte it.element h.1.le (fun p hp => (hf.1 p hp).2)
    (h.2.1.nodup_iff.2 List.nodup_range) h.lt
  obtain ⟨f, f1, fsz, f2⟩ := mulVec_spec (v := ue) h.2.2.1 h.2.2.2 (fun i hi j hj => by
    obtain ⟨p, hp, rfl⟩ := h.ex hi
    obtain ⟨q, hq, rfl⟩ := h.ex hj
    exact hf.2.2 p hp q hq) h2
  refine ⟨ue, f, h1, f1, h2, fsz, fun p hp => by rw [h3 p hp]; exact hf.val p hp, fun p hp => ?_⟩
  rw [f2 _ (h.lt p hp)]
  congr 1
  rw [← (h.2.1.map _).sum_eq, List.map_map]
  refine congrArg List.sum (List.map_congr_left fun q hq => ?_)
  simp only [Function.comp_apply]
  rw [h3 q hq, hf.val q hq]
  rfl

/-! ### Reaction forces -/

/-- The table of the reaction loop: every dof has a number, different dofs have different ones. -/
theorem released (t : List (List ℤ)) (n d : ℕ) (h : (dofNum t n d).isSome) :
    ∃ I : ℕ, dofNum (renumbering (removeBoundaryConditions t)).1 n d = some (I : ℤ) ∧
      I < (renumbering (removeBoundaryConditions t)).2 := by
  obtain ⟨h1, h2, -⟩ := C21_remove t
  have hl := (C20_renumbering (removeBoundaryConditions t)).1
  have hm := mem_allDofs_iff.2 h
  rw [← allDofs_lengths (hl.trans h1)] at hm
  obtain ⟨g, hg⟩ := Option.isSome_iff_exists.1 (mem_allDofs_iff.1 hm)
  have hne : g ≠ -1 := by
    rintro rfl
    rw [(C20_renumbering _).2.1, h2] at hg
    obtain ⟨x, -, hx⟩ := Option.map_eq_some_iff.1 hg
    norm_num at hx
  obtain ⟨a, b⟩ := (C20_range _ g hne).1 ⟨n, d, hg⟩
  exact ⟨g.toNat, by rw [hg]; congr 1; omega, by omega⟩

/-- **C110**: the reaction loop is defined and leaves at every dof of the table the sum over all elements of the
rows of `Ke u`; other entries of `r` are unchanged. -/
theorem C110_reactions (u r₀ : List (Vec K)) (t : List (List ℤ)) (items : List (ElemData K))
    (hsq : ∀ it ∈ items, it.Square) (hfit : ∀ it ∈ items, it.call.Fits t u)
    (hr : ∀ n d, (dofNum t n d).isSome → (nodal r₀ n d).isSome) :
    ∃ r, reactions u r₀ t items = some r ∧ r.length = r₀.length ∧
      (∀ n d, (dofNum t n d).isSome → nodal r n d = some (residual (items.map ElemData.call) (valOf u) n d)) ∧
      (∀ n d, dofNum t n d = none → nodal r n d = nodal r₀ n d) := by
  set s := renumbering (removeBoundaryConditions t) with hs
  have hsome : ∀ n d, (dofNum s.1 n d).isSome ↔ (dofNum t n d).isSome := by
    intro n d
    rw [← mem_allDofs_iff, ← mem_allDofs_iff, allDofs_lengths ((C20_renumbering _).1.trans (C21_remove t).1)]
  have heff : ∀ it ∈ items, HasEff (fun F : List K => F.length = s.2) obsF (fun R =>
      (elementVector u it.nte it.element).bind fun ue => (it.Ke.mulVec ue).bind fun f =>
        asmFe f s.1 it.nte it.element R) (((localDofs it.nte it.element).map (rowFe (numOf s.1) fun a =>
          (it.call.dofs.map fun q => it.call.mat a q.2.2 * valOf u q.1 q.2.1).sum)).sum) := by
    intro it hit
    obtain ⟨ue, f, h1, h2, -, -, -, h3⟩ := element_force (hsq it hit) (hfit it hit)
    have := hasEff_foldlM (localDofs it.nte it.element) _ _ fun p hp => asmFe_row (ntg := s.1) (num := numOf s.1)
      (N := s.2) (Fe := f) (fe := fun a => (it.call.dofs.map fun q => it.call.mat a q.2.2 * valOf u q.1 q.2.1).sum)
      (p := p) (by
        obtain ⟨I, hI, -⟩ := released t p.1 p.2.1 ((hfit it hit).1 p hp).1
        rw [← hs] at hI
        rw [numOf_some hI, hI])
      (by
        obtain ⟨I, hI, hlt⟩ := released t p.1 p.2.1 ((hfit it hit).1 p hp).1
        rw [← hs] at hI hlt
        exact Or.inr ⟨I, numOf_some hI, hlt⟩) (h3 p hp)
    intro R hR
    obtain ⟨R', g1, g2, g3⟩ := this R hR
    refine ⟨R', ?_, g2, g3⟩
    simp only [h1, h2, Option.bind_some]
    rw [← g1]
    unfold asmFe
    rw [forDofs_eq _ _ (hsq it hit).1.ge]
    simp only [Option.bind_eq_bind, Option.pure_def]
  obtain ⟨R, g1, g2, g3⟩ := hasEff_foldlM items _ _ heff (List.replicate s.2 0) (by simp)
  obtain ⟨r, hdis⟩ := C25_defined r₀ R s.1 (by
    intro n d g hg hne
    obtain ⟨a, b⟩ := (C20_range _ g hne).1 ⟨n, d, hg⟩
    exact ⟨a, by rw [g2]; exact b, hr n d ((hsome n d).1 (by rw [hg]; rfl))⟩)
  obtain ⟨d1, d2⟩ := C25_disassembling r₀ r R s.1 hdis
  refine ⟨r, ?_, d1, ?_, ?_⟩
  · unfold reactions
    simp only [Option.bind_eq_bind]
    rw [← hs]
    beta_reduce at g1
    rw [g1, Option.bind_some, hdis]
  · intro n d hnd
    obtain ⟨I, hI, hlt⟩ := released t n d hnd
    rw [← hs] at hI hlt
    rw [d2 n d, hI]
    simp only [Int.toNat_natCast]
    rw [if_neg (by omega)]
    have hR : R[I]? = some (obsF R I) := by
      have : I < R.length := by rw [g2]; exact hlt
      simp [obsF, List.getElem?_eq_getElem this]
    rw [hR, g3]
    congr 1
    rw [Pi.add_apply, show obsF (List.replicate s.2 (0 : K)) I = 0 from by simp [obsF, hlt],
      zero_add, sum_apply1]
    unfold residual
    rw [List.map_map]
    refine congrArg List.sum (List.map_congr_left fun it hit => ?_)
    rw [sum_apply1]
    simp only [Function.comp_apply]
    show _ = ((localDofs it.nte it.element).map _).sum
    refine congrArg List.sum (List.map_congr_left fun p hp => ?_)
    obtain ⟨J, hJ, -⟩ := released t p.1 p.2.1 ((hfit it hit).1 p hp).1
    rw [← hs] at hJ
    unfold rowFe
    rw [numOf_some hJ]
    have hiff : ((J : ℤ) = (I : ℕ)) ↔ p.1 = n ∧ p.2.1 = d := by
      constructor
      · intro e
        rw [e] at hJ
        exact renum_inj (by omega) hI hJ
      · rintro ⟨rfl, rfl⟩
        exact Option.some.inj (hJ.symm.trans hI)
    simp only [hiff, AsmCall.rhs, ElemData.call, sub_zero]
  · intro n d hnd
    rw [d2 n d]
    cases hc : dofNum s.1 n d with
    | none => rfl
    | some g =>
      have := (hsome n d).1 (by rw [hc]; rfl)
      rw [hnd] at this
      simp at this

end

/-- A spring between two nodes. -/
def springItem (k : ℚ) (a b : ℕ) : ElemData ℚ := ⟨⟨2, 2, [k, -k, -k, k]⟩, [[(0, 0)], [(0, 1)]], [a, b]⟩

example : (springItem 2 0 1).Square := by
  refine ⟨rfl, ?_, rfl, rfl⟩
  decide

example : reactions [⟨[0]⟩, ⟨[1]⟩, ⟨[3]⟩] [⟨[0]⟩, ⟨[0]⟩, ⟨[0]⟩] [[-1], [0], [1]] [springItem 2 0 1, springItem 1 1 2] =
    some [⟨[-2]⟩, ⟨[0]⟩, ⟨[2]⟩] := by decide +kernel

example : innerProduct [⟨[0]⟩, ⟨[1]⟩, ⟨[3]⟩] [⟨[-2]⟩, ⟨[0]⟩, ⟨[(2 : ℚ)]⟩] = some 6 := by decide +kernel

/-! ### Balance -/

section
variable [CommRing K]

/-- **C110**: the work of the reaction forces on any field is the bilinear form of the element matrices; with the
displacements themselves it is the value `std::inner_product` of `u` and `r`. -/
theorem C110_work (u r₀ r : List (Vec K)) (t : List (List ℤ)) (items : List (ElemData K))
    (hsq : ∀ it ∈ items, it.Square) (hfit : ∀ it ∈ items, it.call.Fits t u)
    (hr : ∀ n d, (dofNum t n d).isSome → (nodal r₀ n d).isSome) (h : reactions u r₀ t items = some r) :
    (∀ w : ℕ → ℕ → K, ((allDofs t).map fun p => w p.1 p.2 * valOf r p.1 p.2).sum =
      energy (items.map ElemData.call) w (valOf u)) ∧
    (Shaped u t → Shaped r₀ t → innerProduct u r = some (energy (items.map ElemData.call) (valOf u) (valOf u))) := by
  obtain ⟨r', h1, hlen, h2, h3⟩ := C110_reactions u r₀ t items hsq hfit hr
  rw [h] at h1
  cases h1
  have hwork : ∀ w : ℕ → ℕ → K, ((allDofs t).map fun p => w p.1 p.2 * valOf r p.1 p.2).sum =
      energy (items.map ElemData.call) w (valOf u) := by
    intro w
    have := residual_work (t := t) (calls := items.map ElemData.call) (by
      intro c hc p hp
      obtain ⟨it, hit, rfl⟩ := List.mem_map.1 hc
      exact ((hfit it hit).1 p hp).1) (valOf u) w
    have hz : ((items.map ElemData.call).map fun c => callLoad c w).sum = 0 := by
      apply List.sum_eq_zero
      intro y hy
      rw [List.map_map] at hy
      obtain ⟨it, -, rfl⟩ := List.mem_map.1 hy
      simp [callLoad, ElemData.call, AsmCall.rhs]
    rw [hz, sub_zero] at this
    rw [← this]
    refine congrArg List.sum (List.map_congr_left fun p hp => ?_)
    rw [valOf, h2 p.1 p.2 (mem_allDofs_iff.1 hp)]
    rfl
  refine ⟨hwork, fun hu hr0 => ?_⟩
  rw [innerProduct_eq (t := t) hu ⟨hlen.trans hr0.1, fun n d => ?_⟩, hwork]
  constructor
  · intro hs
    by_contra hn
    have hn' : dofNum t n d = none := by simpa using hn
    rw [h3 n d hn'] at hs
    exact hn ((hr0.2 n d).1 hs)
  · intro hs
    rw [h2 n d hs]; rfl

/-- **C110**: a field without element forces does no work on the reaction forces, if the element matrices are
symmetric. -/
theorem C110_balance (u r₀ r : List (Vec K)) (t : List (List ℤ)) (items : List (ElemData K)) (w : ℕ → ℕ → K)
    (hsq : ∀ it ∈ items, it.Square) (hfit : ∀ it ∈ items, it.call.Fits t u)
    (hr : ∀ n d, (dofNum t n d).isSome → (nodal r₀ n d).isSome) (h : reactions u r₀ t items = some r)
    (hsym : SymmetricCalls (items.map ElemData.call))
    (hw : ∀ it ∈ items, ∀ p ∈ it.call.dofs, (it.call.dofs.map fun q => it.call.mat p.2.2 q.2.2 * w q.1 q.2.1).sum = 0) :
    ((allDofs t).map fun p => w p.1 p.2 * valOf r p.1 p.2).sum = 0 := by
  rw [(C110_work u r₀ r t items hsq hfit hr h).1 w, energy_eq]
  apply List.sum_eq_zero
  intro y hy
  rw [List.map_map] at hy
  obtain ⟨it, hit, rfl⟩ := List.mem_map.1 hy
  simp only [Function.comp_apply, callEnergy, list_sum_mul_left]
  rw [list_sum_comm]
  apply List.sum_eq_zero
  intro y hy
  obtain ⟨q, hq, rfl⟩ := List.mem_map.1 hy
  have := hw it hit q hq
  have h2 := congrArg (fun z => valOf u q.1 q.2.1 * z) this
  simp only [mul_zero, list_sum_mul_left] at h2
  rw [← h2]
  refine congrArg List.sum (List.map_congr_left fun p hp => ?_)
  rw [hsym it.call (List.mem_map.2 ⟨it, hit, rfl⟩) p hp q hq]
  ring

end

/-- **C110**: the marks in the table play no role for the reaction forces. -/
theorem C110_marks [Ring K] (u r₀ : List (Vec K)) (t t' : List (List ℤ)) (items : List (ElemData K))
    (h : t'.map List.length = t.map List.length) : reactions u r₀ t' items = reactions u r₀ t items := by
  unfold reactions
  rw [remove_congr h]

/-- **C110**: after an analysis that met its criterion, the reaction forces agree with the loads at the free dofs
up to the tolerance of the solver. -/
theorem C110_free (s : LinSolver) (hs : s.Certifies) (u₀ u' r₀ : List (Vec ℝ)) (t₀ t : List (List ℤ))
    (bc : List ((ℕ × ℕ) × ℝ)) (items : List (ElemData ℝ)) (loads : List (AsmCall ℝ))
    (hsq : ∀ it ∈ items, it.Square) (hl : ∀ c ∈ loads, ∀ a b, c.mat a b = 0)
    (hc : ∀ c ∈ items.map ElemData.call ++ loads, c.Fits t₀ u₀)
    (hr : ∀ n d, (dofNum t₀ n d).isSome → (nodal r₀ n d).isSome) (ht : t.map List.length = t₀.map List.length)
    (h : staticAnalysis s u₀ t₀ bc (items.map ElemData.call ++ loads) = some (u', true)) :
    ∃ r, reactions u' r₀ t items = some r ∧
      dofNorm (freeDofs t₀ bc) (fun n d => valOf r n d - loadAt loads n d) < 1 / 10 ^ 10 *
        dofNorm (freeDofs t₀ bc) (residual (items.map ElemData.call ++ loads) (given u₀ t₀ bc)) := by
  obtain ⟨r, h1, -, h2, -⟩ := C110_reactions u' r₀ t₀ items hsq (fun it hit => by
    obtain ⟨a, b⟩ := hc it.call (List.mem_append_left _ (List.mem_map.2 ⟨it, hit, rfl⟩))
    exact ⟨fun p hp => ⟨(a p hp).1, by rw [← analysis_same h]; exact (a p hp).2⟩, b⟩) hr
  refine ⟨r, by rw [C110_marks u' r₀ t₀ t items ht, h1], ?_⟩
  have h3 := ((C108_result s hs u₀ u' t₀ bc _ true hc h).2.2).1 rfl
  refine lt_of_eq_of_lt ?_ h3
  unfold dofNorm
  congr 2
  refine List.map_congr_left fun p hp => ?_
  have e : valOf r p.1 p.2 = residual (items.map ElemData.call) (valOf u') p.1 p.2 := by
    show (nodal r p.1 p.2).getD 0 = _
    rw [h2 p.1 p.2 (mem_allDofs_iff.1 (List.mem_of_mem_filter hp)), Option.getD_some]
  rw [residual_append, residual_loads hl, ← sub_eq_add_neg, ← e]

/-- **C110**: the plane strain program.  On triangles of positive area the reaction forces are computed, and they
have no resultant force and no resultant moment: they do no work on any rigid motion. -/
theorem C110_planeStrain (x : List (Vec ℝ)) (elements : List (List ℕ)) (E V t : ℝ) (ntg : List (List ℤ))
    (u : List (Vec ℝ)) (hT : Triangles x elements) (hV : (1 - 2 * V) * (1 + V) ≠ 0)
    (hn : ntg.map List.length = (freeTable x.length 2).map List.length)
    (hu : ∀ n < x.length, ∀ j < 2, (nodal u n j).isSome) :
    ∃ r, planeStrainReactions x elements E V t ntg u = some r ∧ ∀ p q w : ℝ,
      ((allDofs ntg).map fun b => rigidAt x p q w b.1 b.2 * valOf r b.1 b.2).sum = 0 := by
  obtain ⟨items, hitems⟩ : ∃ items, elemItems 2 (fun X => planeStrainStiffness SF.triangle3 IC.gauss1Triangle X E V t)
      [0, 1] x elements = some items := by
    refine Option.isSome_iff_exists.1 (mapM_isSome fun e he => ?_)
    obtain ⟨h1, a, b, c, rfl, hp⟩ := hT e he
    obtain ⟨X, hX⟩ := triangle_coords h1 (n := 3) rfl
    obtain ⟨A, hA⟩ := Option.isSome_iff_exists.1 ((C32_planeStrain_defined (E := E) (t := t)).2
      ⟨hV, triangle_regular hX hp⟩)
    rw [elemM_eq_some (k := 2) (dl := [0, 1]) (core := fun X => planeStrainStiffness SF.triangle3 IC.gauss1Triangle X
      E V t) |>.2 ⟨rfl, X, A, hX, hA, rfl, rfl⟩]
    rfl
  obtain ⟨-, hit⟩ := elemItems_some hitems
  have hdof : ∀ n d, (dofNum ntg n d).isSome ↔ (dofNum (freeTable x.length 2) n d).isSome := by
    intro n d
    rw [← mem_allDofs_iff, ← mem_allDofs_iff, allDofs_lengths hn]
  have hlt : ∀ n d, (dofNum (freeTable x.length 2) n d).isSome → n < x.length ∧ d < 2 := by
    intro n d h
    unfold dofNum freeTable at h
    by_cases h1 : n < x.length
    · refine ⟨h1, ?_⟩
      by_contra h2
      simp [h1, h2] at h
    · simp [h1] at h
  have hfit : ∀ it ∈ items, it.call.Fits ntg u := by
    intro it hi
    obtain ⟨-, h2, e, -, h3⟩ := hit it hi
    obtain ⟨a, b⟩ := elem_fits h2 (by decide) (by norm_num) h3
    refine ⟨fun p hp => ⟨(hdof _ _).2 (a p hp).1, ?_⟩, b⟩
    obtain ⟨c1, c2⟩ := hlt _ _ (a p hp).1
    exact hu _ c1 _ c2
  have hr : ∀ n d, (dofNum ntg n d).isSome → (nodal (zeroField x.length 2) n d).isSome := by
    intro n d h
    obtain ⟨c1, c2⟩ := hlt _ _ ((hdof n d).1 h)
    rw [nodal_zeroField c1 c2]; rfl
  obtain ⟨r, h1, -⟩ := C110_reactions u (zeroField x.length 2) ntg items (fun it hi => (hit it hi).1) hfit hr
  refine ⟨r, by unfold planeStrainReactions; rw [hitems]; exact h1, fun p q w => ?_⟩
  rw [(C110_work u _ r ntg items (fun it hi => (hit it hi).1) hfit hr h1).1, energy_eq]
  apply List.sum_eq_zero
  intro y hy
  rw [List.map_map] at hy
  obtain ⟨it, hi, rfl⟩ := List.mem_map.1 hy
  obtain ⟨-, h2, e, he, X, A, hX, hA, hcall⟩ := hit it hi
  simp only [Function.comp_apply]
  have hl := gather_length hX
  rw [hcall, matrix_energy A hl h2]
  have hrig : localField [0, 1] e (rigidAt x p q w) = rigid2 X ![p, q] w := by
    funext ⟨i, j⟩
    have g0 := gather_entry hX i 0
    have g1 := gather_entry hX i 1
    unfold localField rigidAt rigid2 coord
    rw [show nodal x (e[(i : ℕ)]?.getD 0) 0 = some (X i 0) from g0,
      show nodal x (e[(i : ℕ)]?.getD 0) 1 = some (X i 1) from g1]
    fin_cases j
    · simp; ring
    · simp
  rw [hrig]
  exact C33_equilibrium (C32_planeStrain hA) (C33_planeStrain complete_triangle3 hA _ _) _

/-- The triangle of C109 with any displacements: no resultant force in direction 1. -/
example (u : List (Vec ℝ)) (hu : ∀ n < 3, ∀ j < 2, (nodal u n j).isSome) :
    ∃ r, planeStrainReactions cornerNodes [[0, 1, 2]] 210000 (3 / 10) 1 [[-1, -1], [0, -1], [1, 2]] u = some r ∧
      valOf r 0 1 + valOf r 1 1 + valOf r 2 1 = 0 := by
  obtain ⟨r, h1, h2⟩ := C110_planeStrain cornerNodes [[0, 1, 2]] 210000 (3 / 10) 1 [[-1, -1], [0, -1], [1, 2]] u
    corner_triangles (by norm_num) rfl hu
  refine ⟨r, h1, ?_⟩
  have := h2 0 1 0
  simp [allDofs, List.range_succ, rigidAt] at this
  linarith

end Pansfem
