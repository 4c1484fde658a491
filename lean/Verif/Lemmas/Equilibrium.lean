/-
Displacements in equilibrium exist if the energy is definite on the fields that vanish at the supports.
-/
import Verif.Lemmas.ProgramDesign
import Verif.Props.C112_TimeStepping
import Mathlib.LinearAlgebra.FiniteDimensional.Basic

noncomputable section

open Matrix

namespace Pansfem

variable {N k : ℕ} {bc : List ((ℕ × ℕ) × ℝ)}

/-- The field as the programs store it. -/
def fieldList (N k : ℕ) (v : ℕ → ℕ → ℝ) : List (Vec ℝ) := (List.range N).map fun n => ⟨(List.range k).map fun d => v n d⟩

theorem nodal_fieldList (v : ℕ → ℕ → ℝ) (n d : ℕ) :
    nodal (fieldList N k v) n d = if n < N ∧ d < k then some (v n d) else none := by
  by_cases h1 : n < N
  · by_cases h2 : d < k
    · simp [nodal, fieldList, Vec.at?, Vec.size, h1, h2]
    · simp [nodal, fieldList, Vec.at?, Vec.size, h1, h2]
  · simp [nodal, fieldList, h1]

theorem shaped_fieldList (v : ℕ → ℕ → ℝ) : Shaped (fieldList N k v) (freeTable N k) := by
  refine ⟨by simp [fieldList, freeTable], fun n d => ?_⟩
  rw [nodal_fieldList]
  constructor
  · intro h
    by_cases hc : n < N ∧ d < k
    · exact freeTable_isSome hc.1 hc.2
    · simp [hc] at h
  · intro h
    simp [freeTable_lt h]

theorem valOf_fieldList {v : ℕ → ℕ → ℝ} (h : ∀ n d, ¬ (n < N ∧ d < k) → v n d = 0) : valOf (fieldList N k v) = v := by
  funext n d
  unfold valOf
  rw [nodal_fieldList]
  split_ifs with hc
  · rfl
  · exact (h n d hc).symm

/-- The field with one entry. -/
def dofField (p : ℕ × ℕ) (n d : ℕ) : ℝ := if p = (n, d) then 1 else 0

theorem equilibrium_exists {items : List (ElemData ℝ)} {loads : List (AsmCall ℝ)}
    (hd : ∀ c ∈ items.map ElemData.call ++ loads, ∀ p ∈ c.dofs, (dofNum (freeTable N k) p.1 p.2.1).isSome)
    (hl : ∀ c ∈ loads, ∀ a b, c.mat a b = 0)
    (hpos : ∀ w ∈ Admissible (freeTable N k) bc, energy (items.map ElemData.call) w w = 0 → w = 0) :
    ∃ u, Shaped u (freeTable N k) ∧ Equilibrium (freeTable N k) bc (items.map ElemData.call ++ loads) u := by
  let F := {p : Fin N × Fin k // IsFree (freeTable N k) bc (p.1, p.2)}
  let ext : (F → ℝ) →ₗ[ℝ] (ℕ → ℕ → ℝ) :=
    { toFun := fun y n d => ∑ p : F, y p * dofField ((p.1.1 : ℕ), (p.1.2 : ℕ)) n d
      map_add' := fun y z => by
        funext n d
        simp only [Pi.add_apply, add_mul, Finset.sum_add_distrib]
      map_smul' := fun a y => by
        funext n d
        simp only [Pi.smul_apply, smul_eq_mul, mul_assoc, Finset.mul_sum, RingHom.id_apply] }
  have hext : ∀ y n d, ext y n d = ∑ p : F, y p * dofField ((p.1.1 : ℕ), (p.1.2 : ℕ)) n d := fun _ _ _ => rfl
  have hat : ∀ (y : F → ℝ) (p : F), ext y p.1.1 p.1.2 = y p := by
    intro y p
    rw [hext, Finset.sum_eq_single p]
    · simp [dofField]
    · intro q _ hq
      have : ((q.1.1 : ℕ), (q.1.2 : ℕ)) ≠ ((p.1.1 : ℕ), (p.1.2 : ℕ)) := by
        intro h
        simp only [Prod.mk.injEq] at h
        exact hq (Subtype.ext (Prod.ext (Fin.ext h.1) (Fin.ext h.2)))
      simp [dofField, this]
    · intro h; exact absurd (Finset.mem_univ _) h
  have hoff : ∀ (y : F → ℝ) n d, ¬ IsFree (freeTable N k) bc (n, d) → ext y n d = 0 := by
    intro y n d h
    rw [hext]
    refine Finset.sum_eq_zero fun p _ => ?_
    have : ((p.1.1 : ℕ), (p.1.2 : ℕ)) ≠ (n, d) := fun he => h (by rw [← he]; exact p.2)
    simp [dofField, this]
  let L : (F → ℝ) →ₗ[ℝ] (F → ℝ) :=
    { toFun := fun y p => energyForm (items.map ElemData.call) (dofField ((p.1.1 : ℕ), (p.1.2 : ℕ))) (ext y)
      map_add' := fun y z => by funext p; simp
      map_smul' := fun a y => by funext p; simp }
  have hsum : ∀ y : F → ℝ, ext y = ∑ p : F, y p • dofField ((p.1.1 : ℕ), (p.1.2 : ℕ)) := by
    intro y
    funext n d
    rw [hext]
    simp [Finset.sum_apply]
  have hinj : Function.Injective L := by
    rw [← LinearMap.ker_eq_bot, LinearMap.ker_eq_bot']
    intro y hy
    have h0 : energy (items.map ElemData.call) (ext y) (ext y) = 0 := by
      rw [← energyForm_apply]
      conv_lhs => rw [show energyForm (items.map ElemData.call) (ext y) =
        ∑ p : F, y p • energyForm (items.map ElemData.call) (dofField ((p.1.1 : ℕ), (p.1.2 : ℕ))) by
          rw [hsum y, map_sum]; simp only [map_smul]]
      rw [LinearMap.sum_apply]
      refine Finset.sum_eq_zero fun p _ => ?_
      rw [LinearMap.smul_apply]
      have : energyForm (items.map ElemData.call) (dofField ((p.1.1 : ℕ), (p.1.2 : ℕ))) (ext y) = 0 := congrFun hy p
      rw [this, smul_zero]
    have h1 := hpos (ext y) (hoff y) h0
    funext p
    rw [← hat y p, h1]
    rfl
  obtain ⟨y, hy⟩ := LinearMap.surjective_of_injective hinj fun p => loadForm loads (dofField ((p.1.1 : ℕ), (p.1.2 : ℕ)))
  have hval : valOf (fieldList N k (ext y)) = ext y := valOf_fieldList fun n d h => hoff y n d fun hf =>
    h ⟨(free_table.1 hf).1, (free_table.1 hf).2.1⟩
  refine ⟨fieldList N k (ext y), shaped_fieldList _, ?_, ?_⟩
  · rintro ⟨n, d⟩ hp
    obtain ⟨hp1, hp2⟩ := List.mem_filter.1 hp
    have hf : IsFree (freeTable N k) bc (n, d) := of_decide_eq_true hp2
    obtain ⟨hn, hk, -⟩ := free_table.1 hf
    have h1 := residual_work hd (ext y) (dofField (n, d))
    have h2 : energy (items.map ElemData.call) (dofField (n, d)) (ext y) = loadForm loads (dofField (n, d)) :=
      congrFun hy ⟨(⟨n, hn⟩, ⟨d, hk⟩), hf⟩
    have h3 := sum_single (allDofs_nodup (freeTable N k)) hp1
      (fun q => residual (items.map ElemData.call ++ loads) (ext y) q.1 q.2)
    rw [energy_eq, List.map_append, List.sum_append, List.map_append, List.sum_append] at h1
    have h4 : (loads.map fun c => callEnergy c (dofField (n, d)) (ext y)).sum = 0 := by
      apply List.sum_eq_zero
      intro z hz
      obtain ⟨c, hc, rfl⟩ := List.mem_map.1 hz
      unfold callEnergy
      simp [hl c hc]
    have h5 : ((items.map ElemData.call).map fun c => callLoad c (dofField (n, d))).sum = 0 := by
      apply List.sum_eq_zero
      intro z hz
      rw [List.map_map] at hz
      obtain ⟨it, -, rfl⟩ := List.mem_map.1 hz
      simp [callLoad, ElemData.call, AsmCall.rhs]
    rw [h4, h5, ← energy_eq, h2, add_zero, zero_add,
      show (loads.map fun c => callLoad c (dofField (n, d))).sum = loadForm loads (dofField (n, d)) from rfl,
      sub_self] at h1
    rw [hval]
    refine Eq.trans ?_ h1
    refine h3.symm.trans (congrArg List.sum (List.map_congr_left fun q _ => ?_))
    simp [dofField]
  · intro n d h
    rw [hval]
    exact hoff y n d h

end Pansfem
