/-
Positive forms that need not be symmetric: the equations at the free dofs have exactly one solution.
-/
import Verif.Props.C112_TimeStepping

namespace Pansfem

theorem static_affine (calls : List (AsmCall ℝ)) (v w : ℕ → ℕ → ℝ) (n d : ℕ) :
    residual calls (v + w) n d = residual calls v n d + energyForm calls (unitField n d) w := by
  simp only [residual_eq, ← energyForm_apply, map_add]
  ring

/-- If the sum of the element forms is positive on the fields that vanish at the held dofs, there is exactly one field
with given values at the held dofs that meets the equations at the free ones. -/
theorem static_exact {calls : List (AsmCall ℝ)} {t : List (List ℤ)} {bc : List ((ℕ × ℕ) × ℝ)}
    (hf : ∀ c ∈ calls, ∀ p ∈ c.dofs, (dofNum t p.1 p.2.1).isSome)
    (hpos : ∀ v : ℕ → ℕ → ℝ, (∀ n d, ¬ IsFree t bc (n, d) → v n d = 0) → (∃ n d, v n d ≠ 0) → 0 < energy calls v v)
    (u : ℕ → ℕ → ℝ) : ∃! v : ℕ → ℕ → ℝ, (∀ p ∈ freeDofs t bc, residual calls v p.1 p.2 = 0) ∧
      ∀ n d, ¬ IsFree t bc (n, d) → v n d = u n d := by
  have hmem : ∀ n d, IsFree t bc (n, d) ↔ (n, d) ∈ freeDofs t bc := by
    intro n d
    refine ⟨fun h => List.mem_filter.2 ⟨mem_allDofs (by rw [dofNum_of_numOf h.1]; rfl), decide_eq_true h⟩,
      fun h => of_decide_eq_true (List.mem_filter.1 h).2⟩
  have hwork : ∀ w : ℕ → ℕ → ℝ, ((allDofs t).map fun p => w p.1 p.2 * energyForm calls (unitField p.1 p.2) w).sum =
      energy calls w w := by
    intro w
    have h1 := residual_work hf w w
    have h2 := residual_work hf 0 w
    have e : ∀ p : ℕ × ℕ, w p.1 p.2 * residual calls w p.1 p.2 =
        w p.1 p.2 * residual calls 0 p.1 p.2 + w p.1 p.2 * energyForm calls (unitField p.1 p.2) w := by
      intro p
      have := static_affine calls 0 w p.1 p.2
      rw [zero_add] at this
      rw [this]
      ring
    simp only [e, List.sum_map_add] at h1
    rw [h2] at h1
    simp only [← energyForm_apply, map_zero] at h1 ⊢
    linarith
  have hzero : ∀ w : ℕ → ℕ → ℝ, (∀ n d, ¬ IsFree t bc (n, d) → w n d = 0) →
      (∀ p ∈ freeDofs t bc, energyForm calls (unitField p.1 p.2) w = 0) → w = 0 := by
    intro w h1 h2
    by_contra hne
    have h3 := hpos w h1 (by
      by_contra hc
      push Not at hc
      exact hne (funext fun n => funext fun d => hc n d))
    rw [← hwork, List.sum_eq_zero] at h3
    · exact lt_irrefl _ h3
    · intro r hr
      obtain ⟨p, hp, rfl⟩ := List.mem_map.1 hr
      by_cases hf : IsFree t bc (p.1, p.2)
      · rw [h2 p ((hmem _ _).1 hf), mul_zero]
      · rw [h1 _ _ hf, zero_mul]
  let F := {p : ℕ × ℕ // p ∈ freeDofs t bc}
  haveI : Finite F := (List.finite_toSet (freeDofs t bc)).to_subtype
  let ext : (F → ℝ) →ₗ[ℝ] (ℕ → ℕ → ℝ) :=
    { toFun := fun y n d => if h : (n, d) ∈ freeDofs t bc then y ⟨(n, d), h⟩ else 0
      map_add' := by intro a b; funext n d; simp only [Pi.add_apply]; split_ifs <;> simp
      map_smul' := by
        intro r a; funext n d
        simp only [Pi.smul_apply, RingHom.id_apply]; split_ifs <;> simp }
  have hext0 : ∀ y n d, ¬ IsFree t bc (n, d) → ext y n d = 0 := by
    intro y n d h
    exact dif_neg fun hc => h ((hmem n d).2 hc)
  let L : (F → ℝ) →ₗ[ℝ] (F → ℝ) := LinearMap.pi fun p => (energyForm calls (unitField p.1.1 p.1.2)).comp ext
  have hinj : Function.Injective L := by
    rw [← LinearMap.ker_eq_bot, LinearMap.ker_eq_bot']
    intro y hy
    have := hzero (ext y) (hext0 y) fun p hp => congrFun hy ⟨p, hp⟩
    funext p
    have h1 := congrFun (congrFun this p.1.1) p.1.2
    have h2 : ext y p.1.1 p.1.2 = y p := dif_pos p.2
    rw [← h2, h1]
    rfl
  obtain ⟨y, hy⟩ := LinearMap.surjective_of_injective hinj fun p => - residual calls u p.1.1 p.1.2
  refine ⟨u + ext y, ⟨fun p hp => ?_, fun n d hn => ?_⟩, fun v hv => ?_⟩
  · rw [static_affine]
    have : energyForm calls (unitField p.1 p.2) (ext y) = _ := congrFun hy ⟨p, hp⟩
    rw [this]
    ring
  · simp [hext0 y n d hn]
  · have := hzero (v - (u + ext y)) (fun n d hn => by
      have h1 := hv.2 n d hn
      have h2 := hext0 y n d hn
      simp [h1, h2]) fun p hp => by
      have h1 := hv.1 p hp
      have h2 := static_affine calls u (v - u) p.1 p.2
      rw [add_sub_cancel, h1] at h2
      have h3 : energyForm calls (unitField p.1 p.2) (ext y) = _ := congrFun hy ⟨p, hp⟩
      rw [← sub_sub, map_sub, h3]
      linarith
    exact sub_eq_zero.1 this

end Pansfem
