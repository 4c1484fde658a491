/-
The loops over integration points as sums.
-/
import Verif.Model.Elastic
import Mathlib.Algebra.BigOperators.Fin
import Mathlib.Algebra.BigOperators.Group.List.Basic
import Mathlib.LinearAlgebra.Matrix.Symmetric
import Mathlib.LinearAlgebra.Matrix.DotProduct
import Mathlib.Algebra.Order.BigOperators.Group.Finset
import Mathlib.Algebra.Order.Field.Basic
import Mathlib.Tactic.Ring
import Mathlib.Tactic.Linarith
import Mathlib.Tactic.NoncommRing

namespace Pansfem

open Matrix

section Gauss
variable {M : Type} [AddCommMonoid M]

theorem foldlM_some {N : ℕ} (term : Fin N → Option M) (v : Fin N → M) (l : List (Fin N)) (a : M)
    (h : ∀ g ∈ l, term g = some (v g)) :
    l.foldlM (fun acc g => do return acc + (← term g)) a = some (a + (l.map v).sum) := by
  induction l generalizing a with
  | nil => simp
  | cons g l ih =>
    rw [List.foldlM_cons, h g (by simp)]
    simp only [Option.bind_eq_bind, Option.bind_some, Option.pure_def]
    have := ih (a + v g) (fun g' hg' => h g' (by simp [hg']))
    simp only [Option.bind_eq_bind, Option.pure_def] at this
    rw [this, List.map_cons, List.sum_cons, add_assoc]

theorem foldlM_isSome {N : ℕ} (term : Fin N → Option M) (l : List (Fin N)) (a s : M)
    (h : l.foldlM (fun acc g => do return acc + (← term g)) a = some s) :
    ∀ g ∈ l, (term g).isSome := by
  induction l generalizing a with
  | nil => simp
  | cons g l ih =>
    rw [List.foldlM_cons] at h
    cases hg : term g with
    | none => simp [hg] at h
    | some v =>
      simp only [hg, Option.bind_eq_bind, Option.bind_some, Option.pure_def] at h
      intro g' hg'
      rcases List.mem_cons.1 hg' with rfl | hg'
      · simp [hg]
      · exact ih (a + v) (by simpa only [Option.bind_eq_bind, Option.pure_def] using h) g' hg'

/-- The loop over the integration points succeeds when every term is defined, with the sum of the
terms. -/
theorem gauss_eq_some {N : ℕ} {term : Fin N → Option M} {s : M} :
    gauss N term = some s ↔ ∃ v : Fin N → M, (∀ g, term g = some (v g)) ∧ s = ∑ g, v g := by
  constructor
  · intro h
    have hs := foldlM_isSome term _ 0 s h
    choose v hv using fun g => Option.isSome_iff_exists.1 (hs g (List.mem_finRange g))
    refine ⟨v, hv, ?_⟩
    have := foldlM_some term v (List.finRange N) 0 fun g _ => hv g
    rw [gauss, this, Option.some.injEq, zero_add] at h
    rw [← h, ← List.sum_ofFn, List.ofFn_eq_map]
  · rintro ⟨v, hv, rfl⟩
    rw [gauss, foldlM_some term v (List.finRange N) 0 fun g _ => hv g, zero_add, ← List.sum_ofFn,
      List.ofFn_eq_map]

theorem gauss_some {N : ℕ} (v : Fin N → M) : gauss N (fun g => some (v g)) = some (∑ g, v g) :=
  gauss_eq_some.2 ⟨v, fun _ => rfl, rfl⟩

end Gauss

section Loops
variable {K : Type} [Field K] {n d : ℕ} {M : Type} [AddCommMonoid M] [Module K M]

/-- The gradient of the shape functions where the Jacobian is invertible. -/
noncomputable def gradAt (sf : SF K d n) (X : Matrix (Fin n) (Fin d) K) (r : Fin d → K) :
    Matrix (Fin d) (Fin n) K :=
  (sf.dNdr r * X)⁻¹ * sf.dNdr r

/-- The factor `J*Weights[g][0]*Weights[g][1]` of a plane region. -/
def measure2 (sf : SF K 2 n) (ic : IC K 2) (X : Matrix (Fin n) (Fin 2) K) (g : Fin ic.N) : K :=
  (sf.dNdr (ic.points g) * X).det * ic.weights g 0 * ic.weights g 1

/-- The factor `J*Weights[g][0]*Weights[g][1]*Weights[g][2]` of a solid. -/
def measure3 (sf : SF K 3 n) (ic : IC K 3) (X : Matrix (Fin n) (Fin 3) K) (g : Fin ic.N) : K :=
  (sf.dNdr (ic.points g) * X).det * ic.weights g 0 * ic.weights g 1 * ic.weights g 2

/-- The element is not degenerate at the points of the rule. -/
def Regular (sf : SF K d n) (ic : IC K d) (X : Matrix (Fin n) (Fin d) K) : Prop :=
  ∀ g, (sf.dNdr (ic.points g) * X).det ≠ 0

theorem div?_eq_some [DecidableEq K] {a b c : K} : div? a b = some c ↔ b ≠ 0 ∧ c = a / b := by
  by_cases hb : b = 0 <;> simp [div?, hb, eq_comm]

theorem inv?_eq_some [DecidableEq K] {ι : Type} [Fintype ι] [DecidableEq ι] {A B : Matrix ι ι K} :
    inv? A = some B ↔ A.det ≠ 0 ∧ B = A⁻¹ := by
  by_cases h : A.det = 0 <;> simp [inv?, h, eq_comm]

theorem grad?_eq_some [DecidableEq K] {sf : SF K d n} {X : Matrix (Fin n) (Fin d) K} {r : Fin d → K}
    {G : Matrix (Fin d) (Fin n) K} :
    grad? sf X r = some G ↔ (sf.dNdr r * X).det ≠ 0 ∧ G = gradAt sf X r := by
  by_cases h : (sf.dNdr r * X).det = 0 <;> simp [grad?, inv?, jac, h, gradAt, eq_comm]

theorem loop2_eq_some [DecidableEq K] {sf : SF K 2 n} {ic : IC K 2} {X : Matrix (Fin n) (Fin 2) K}
    {f : (Fin 2 → K) → Matrix (Fin 2) (Fin n) K → Option M} {s : M} :
    loop2 sf ic X f = some s ↔ Regular sf ic X ∧
      ∃ v : Fin ic.N → M, (∀ g, f (ic.points g) (gradAt sf X (ic.points g)) = some (v g)) ∧
        s = ∑ g, measure2 sf ic X g • v g := by
  rw [loop2, gauss_eq_some]
  constructor
  · rintro ⟨v, hv, rfl⟩
    have key : ∀ g, ∃ w, (sf.dNdr (ic.points g) * X).det ≠ 0 ∧
        f (ic.points g) (gradAt sf X (ic.points g)) = some w ∧ v g = measure2 sf ic X g • w := by
      intro g
      have h := hv g
      simp only [Option.bind_eq_bind, Option.pure_def, Option.bind_eq_some_iff, Option.some.injEq] at h
      obtain ⟨G, hG, w, hw, e⟩ := h
      obtain ⟨h0, rfl⟩ := grad?_eq_some.1 hG
      exact ⟨w, h0, hw, e.symm⟩
    choose w h0 hw e using key
    exact ⟨h0, w, hw, Finset.sum_congr rfl fun g _ => e g⟩
  · rintro ⟨h0, w, hw, rfl⟩
    refine ⟨fun g => measure2 sf ic X g • w g, fun g => ?_, rfl⟩
    rw [grad?_eq_some.2 ⟨h0 g, rfl⟩]
    simp [hw g, measure2, jac]

theorem loop2_some [DecidableEq K] {sf : SF K 2 n} {ic : IC K 2} {X : Matrix (Fin n) (Fin 2) K}
    {f : (Fin 2 → K) → Matrix (Fin 2) (Fin n) K → M} {s : M} :
    loop2 sf ic X (fun r G => some (f r G)) = some s ↔ Regular sf ic X ∧
      s = ∑ g, measure2 sf ic X g • f (ic.points g) (gradAt sf X (ic.points g)) := by
  rw [loop2_eq_some]
  refine and_congr_right fun _ => ⟨?_, fun h => ⟨_, fun _ => rfl, h⟩⟩
  rintro ⟨v, hv, rfl⟩
  exact Finset.sum_congr rfl fun g _ => by rw [Option.some.inj (hv g)]

theorem loop2J_eq_some {sf : SF K 2 n} {ic : IC K 2} {X : Matrix (Fin n) (Fin 2) K}
    {f : (Fin 2 → K) → M} {s : M} :
    loop2J sf ic X f = some s ↔ s = ∑ g, measure2 sf ic X g • f (ic.points g) := by
  rw [loop2J, gauss_some, Option.some.injEq, eq_comm]
  rfl

theorem loop3_eq_some [DecidableEq K] {sf : SF K 3 n} {ic : IC K 3} {X : Matrix (Fin n) (Fin 3) K}
    {f : (Fin 3 → K) → Matrix (Fin 3) (Fin n) K → Option M} {s : M} :
    loop3 sf ic X f = some s ↔ Regular sf ic X ∧
      ∃ v : Fin ic.N → M, (∀ g, f (ic.points g) (gradAt sf X (ic.points g)) = some (v g)) ∧
        s = ∑ g, measure3 sf ic X g • v g := by
  rw [loop3, gauss_eq_some]
  constructor
  · rintro ⟨v, hv, rfl⟩
    have key : ∀ g, ∃ w, (sf.dNdr (ic.points g) * X).det ≠ 0 ∧
        f (ic.points g) (gradAt sf X (ic.points g)) = some w ∧ v g = measure3 sf ic X g • w := by
      intro g
      have h := hv g
      simp only [Option.bind_eq_bind, Option.pure_def, Option.bind_eq_some_iff, Option.some.injEq] at h
      obtain ⟨G, hG, w, hw, e⟩ := h
      obtain ⟨h0, rfl⟩ := grad?_eq_some.1 hG
      exact ⟨w, h0, hw, e.symm⟩
    choose w h0 hw e using key
    exact ⟨h0, w, hw, Finset.sum_congr rfl fun g _ => e g⟩
  · rintro ⟨h0, w, hw, rfl⟩
    refine ⟨fun g => measure3 sf ic X g • w g, fun g => ?_, rfl⟩
    rw [grad?_eq_some.2 ⟨h0 g, rfl⟩]
    simp [hw g, measure3, jac]

theorem loop3_some [DecidableEq K] {sf : SF K 3 n} {ic : IC K 3} {X : Matrix (Fin n) (Fin 3) K}
    {f : (Fin 3 → K) → Matrix (Fin 3) (Fin n) K → M} {s : M} :
    loop3 sf ic X (fun r G => some (f r G)) = some s ↔ Regular sf ic X ∧
      s = ∑ g, measure3 sf ic X g • f (ic.points g) (gradAt sf X (ic.points g)) := by
  rw [loop3_eq_some]
  refine and_congr_right fun _ => ⟨?_, fun h => ⟨_, fun _ => rfl, h⟩⟩
  rintro ⟨v, hv, rfl⟩
  exact Finset.sum_congr rfl fun g _ => by rw [Option.some.inj (hv g)]

theorem loop1_eq_some {n d : ℕ} {M : Type} [AddCommMonoid M] [Module ℝ M] {sf : SF ℝ 1 n}
    {ic : IC ℝ 1} {X : Matrix (Fin n) (Fin d) ℝ} {f : (Fin 1 → ℝ) → M} {s : M} :
    loop1 sf ic X f = some s ↔
      s = ∑ g, (lineElement sf X (ic.points g) * ic.weights g 0) • f (ic.points g) := by
  rw [loop1, gauss_some, Option.some.injEq, eq_comm]

/-! ### Sums of congruence transforms -/

variable {ι κ : Type} [Fintype ι] [Fintype κ] [DecidableEq ι] [DecidableEq κ]

theorem isSymm_sum {N : ℕ} {A : Fin N → Matrix ι ι K} (h : ∀ g, (A g).IsSymm) :
    (∑ g, A g).IsSymm := by
  unfold Matrix.IsSymm
  rw [Matrix.transpose_sum]
  exact Finset.sum_congr rfl fun g _ => h g

theorem isSymm_congr_transform {D : Matrix κ κ K} (h : D.IsSymm) (B : Matrix κ ι K) :
    (Bᵀ * D * B).IsSymm := by
  unfold Matrix.IsSymm
  rw [Matrix.transpose_mul, Matrix.transpose_mul, Matrix.transpose_transpose, h.eq, Matrix.mul_assoc]

theorem mulVec_sum {N : ℕ} (A : Fin N → Matrix ι κ K) (u : κ → K) :
    (∑ g, A g) *ᵥ u = ∑ g, A g *ᵥ u := by
  ext i
  simp only [Matrix.mulVec, dotProduct, Matrix.sum_apply, Finset.sum_apply, Finset.sum_mul]
  exact Finset.sum_comm

theorem dotProduct_congr_transform (D : Matrix κ κ K) (B : Matrix κ ι K) (u v : ι → K) :
    u ⬝ᵥ ((Bᵀ * D * B) *ᵥ v) = (B *ᵥ u) ⬝ᵥ (D *ᵥ (B *ᵥ v)) := by
  rw [← Matrix.mulVec_mulVec, ← Matrix.mulVec_mulVec, Matrix.dotProduct_mulVec,
    Matrix.vecMul_transpose]

/-- A sum `∑ c_g • B_gᵀ D B_g` kills every vector that all `B_g` kill. -/
theorem sum_congr_transform_kill {N : ℕ} {c : Fin N → K} {B : Fin N → Matrix κ ι K}
    {D : Matrix κ κ K} {u : ι → K} (h : ∀ g, B g *ᵥ u = 0) :
    (∑ g, c g • ((B g)ᵀ * D * B g)) *ᵥ u = 0 := by
  rw [mulVec_sum]
  refine Finset.sum_eq_zero fun g _ => ?_
  rw [Matrix.smul_mulVec, ← Matrix.mulVec_mulVec, h g, Matrix.mulVec_zero, smul_zero]

theorem dot_sum_congr_transform {N : ℕ} (c : Fin N → K) (B : Fin N → Matrix κ ι K)
    (D : Matrix κ κ K) (u v : ι → K) :
    u ⬝ᵥ ((∑ g, c g • ((B g)ᵀ * D * B g)) *ᵥ v) =
      ∑ g, c g * ((B g *ᵥ u) ⬝ᵥ (D *ᵥ (B g *ᵥ v))) := by
  rw [mulVec_sum, dotProduct_sum]
  refine Finset.sum_congr rfl fun g _ => ?_
  rw [Matrix.smul_mulVec, dotProduct_smul, dotProduct_congr_transform, smul_eq_mul]

end Loops

end Pansfem
