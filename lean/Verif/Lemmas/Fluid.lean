/-
Mixed elements: the loop over the integration points as a sum, products of the block matrices.
-/
import Verif.Model.Fluid
import Verif.Lemmas.Elastic
import Mathlib.Data.Fintype.BigOperators
import Mathlib.Tactic.FieldSimp

noncomputable section

namespace Pansfem

open Matrix

variable {K : Type} [Field K] {m n : ℕ}

/-- The gradient of the velocity shape functions with the geometry of the pressure nodes. -/
def gradMix (sfu : SF K 2 m) (sfp : SF K 2 n) (Xp : Matrix (Fin n) (Fin 2) K) (r : Fin 2 → K) :
    Matrix (Fin 2) (Fin m) K :=
  (sfp.dNdr r * Xp)⁻¹ * sfu.dNdr r

section Loop
variable {M : Type} [AddCommMonoid M] [Module K M]
variable {sfu : SF K 2 m} {sfp : SF K 2 n} {ic : IC K 2} {Xp : Matrix (Fin n) (Fin 2) K}

theorem loopF_eq_some [DecidableEq K]
    {f : (Fin m → K) → Matrix (Fin 2) (Fin m) K → (Fin n → K) → Matrix (Fin 2) (Fin n) K → Option M}
    {s : M} :
    loopF sfu sfp ic Xp f = some s ↔ Regular sfp ic Xp ∧
      ∃ v : Fin ic.N → M, (∀ g, f (sfu.N (ic.points g)) (gradMix sfu sfp Xp (ic.points g))
          (sfp.N (ic.points g)) (gradAt sfp Xp (ic.points g)) = some (v g)) ∧
        s = ∑ g, measure2 sfp ic Xp g • v g := by
  rw [loopF, gauss_eq_some]
  constructor
  · rintro ⟨v, hv, rfl⟩
    have key : ∀ g, ∃ w, (sfp.dNdr (ic.points g) * Xp).det ≠ 0 ∧
        f (sfu.N (ic.points g)) (gradMix sfu sfp Xp (ic.points g))
          (sfp.N (ic.points g)) (gradAt sfp Xp (ic.points g)) = some w ∧
          v g = measure2 sfp ic Xp g • w := by
      intro g
      have h := hv g
      simp only [Option.bind_eq_bind, Option.pure_def, Option.bind_eq_some_iff, Option.some.injEq] at h
      obtain ⟨G, hG, w, hw, e⟩ := h
      obtain ⟨h0, rfl⟩ := inv?_eq_some.1 hG
      exact ⟨w, h0, hw, e.symm⟩
    choose w h0 hw e using key
    exact ⟨h0, w, hw, Finset.sum_congr rfl fun g _ => e g⟩
  · rintro ⟨h0, w, hw, rfl⟩
    refine ⟨fun g => measure2 sfp ic Xp g • w g, fun g => ?_, rfl⟩
    have := inv?_eq_some.2 ⟨h0 g, (rfl : (sfp.dNdr (ic.points g) * Xp)⁻¹ = _)⟩
    dsimp only
    rw [show inv? (jac sfp Xp (ic.points g)) = _ from this]
    have hw' := hw g
    unfold gradMix gradAt at hw'
    simp [hw', measure2, jac]

theorem loopF_some [DecidableEq K]
    {f : (Fin m → K) → Matrix (Fin 2) (Fin m) K → (Fin n → K) → Matrix (Fin 2) (Fin n) K → M} {s : M} :
    loopF sfu sfp ic Xp (fun a b c d => some (f a b c d)) = some s ↔ Regular sfp ic Xp ∧
      s = ∑ g, measure2 sfp ic Xp g • f (sfu.N (ic.points g)) (gradMix sfu sfp Xp (ic.points g))
          (sfp.N (ic.points g)) (gradAt sfp Xp (ic.points g)) := by
  rw [loopF_eq_some]
  refine and_congr_right fun _ => ⟨?_, fun h => ⟨_, fun _ => rfl, h⟩⟩
  rintro ⟨v, hv, rfl⟩
  exact Finset.sum_congr rfl fun g _ => by rw [Option.some.inj (hv g)]

theorem loopF_defined [DecidableEq K]
    {f : (Fin m → K) → Matrix (Fin 2) (Fin m) K → (Fin n → K) → Matrix (Fin 2) (Fin n) K → Option M}
    (hr : Regular sfp ic Xp) (h : ∀ g, ∃ v, f (sfu.N (ic.points g)) (gradMix sfu sfp Xp (ic.points g))
      (sfp.N (ic.points g)) (gradAt sfp Xp (ic.points g)) = some v) :
    ∃ s, loopF sfu sfp ic Xp f = some s := by
  choose v hv using h
  exact ⟨_, loopF_eq_some.2 ⟨hr, v, hv, rfl⟩⟩

theorem loop2_defined [DecidableEq K] {f : (Fin 2 → K) → Matrix (Fin 2) (Fin n) K → Option M}
    (hr : Regular sfp ic Xp) (h : ∀ g, ∃ v, f (ic.points g) (gradAt sfp Xp (ic.points g)) = some v) :
    ∃ s, loop2 sfp ic Xp f = some s := by
  choose v hv using h
  exact ⟨_, loop2_eq_some.2 ⟨hr, v, hv, rfl⟩⟩

end Loop

section Blocks
variable {uu uv vu vv : Fin m → Fin m → K} {up vp : Fin m → Fin n → K} {pu pv : Fin n → Fin m → K}
  {pp : Fin n → Fin n → K}

theorem fluM_transpose : (fluM uu uv vu vv up vp pu pv pp)ᵀ =
    fluM (fun i j => uu j i) (fun i j => vu j i) (fun i j => uv j i) (fun i j => vv j i)
      (fun i j => pu j i) (fun i j => pv j i) (fun i j => up j i) (fun i j => vp j i)
      (fun i j => pp j i) := by
  ext r c
  rcases r with (i | i) | i <;> rcases c with (j | j) | j <;> rfl

theorem fluM_mulVec (u v : Fin m → K) (p : Fin n → K) :
    fluM uu uv vu vv up vp pu pv pp *ᵥ fluV u v p =
      fluV (fun i => ∑ j, uu i j * u j + ∑ j, uv i j * v j + ∑ j, up i j * p j)
        (fun i => ∑ j, vu i j * u j + ∑ j, vv i j * v j + ∑ j, vp i j * p j)
        (fun i => ∑ j, pu i j * u j + ∑ j, pv i j * v j + ∑ j, pp i j * p j) := by
  ext r
  rcases r with (i | i) | i <;>
    simp only [mulVec, dotProduct, Fintype.sum_sum_type, fluM, fluV, Matrix.of_apply]

theorem fluV_dot (u v u' v' : Fin m → K) (p p' : Fin n → K) :
    fluV u v p ⬝ᵥ fluV u' v' p' = u ⬝ᵥ u' + v ⬝ᵥ v' + p ⬝ᵥ p' := by
  simp only [dotProduct, Fintype.sum_sum_type, fluV]

/-- Every vector over the local unknowns has its three parts. -/
theorem fluV_eta (z : Flu m n → K) :
    fluV (fun i => z (.inl (.inl i))) (fun i => z (.inl (.inr i))) (fun j => z (.inr j)) = z := by
  ext r
  rcases r with (i | i) | i <;> rfl

theorem fluV_congr {u v u' v' : Fin m → K} {p p' : Fin n → K} (hu : ∀ i, u i = u' i)
    (hv : ∀ i, v i = v' i) (hp : ∀ i, p i = p' i) : fluV u v p = fluV u' v' p' := by
  rw [funext hu, funext hv, funext hp]

end Blocks

section Sums
variable {ι κ : Type} [Fintype ι] [Fintype κ]

theorem smul_sum_mulVec {N : ℕ} (c : Fin N → K) (A : Fin N → Matrix ι κ K) (z : κ → K) :
    (∑ g, c g • A g) *ᵥ z = ∑ g, c g • (A g *ᵥ z) := by
  ext i
  simp only [Matrix.mulVec, dotProduct, Matrix.sum_apply, Finset.sum_apply, Finset.sum_mul,
    Matrix.smul_apply, Pi.smul_apply, smul_eq_mul, Finset.mul_sum, mul_assoc]
  exact Finset.sum_comm

theorem dot_smul_sum_mulVec {N : ℕ} (c : Fin N → K) (A : Fin N → Matrix ι κ K) (y : ι → K) (z : κ → K) :
    y ⬝ᵥ ((∑ g, c g • A g) *ᵥ z) = ∑ g, c g * (y ⬝ᵥ (A g *ᵥ z)) := by
  rw [smul_sum_mulVec, dotProduct_sum]
  exact Finset.sum_congr rfl fun g _ => by rw [dotProduct_smul, smul_eq_mul]

end Sums

end Pansfem
