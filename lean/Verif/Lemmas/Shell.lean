/-
Closed forms of the beam and shell routines, and what their strain matrices compute.
-/
import Verif.Model.Shell
import Verif.Lemmas.Elastic
import Mathlib.Tactic.FinCases
import Mathlib.Tactic.LinearCombination

namespace Pansfem

open Matrix

variable {n : ℕ}

theorem allSome_eq_some {α : Type} {f : Fin n → Option α} {v : Fin n → α} :
    allSome f = some v ↔ ∀ i, f i = some (v i) := by
  unfold allSome
  constructor
  · intro h i
    split_ifs at h with hs
    rw [← Option.some.inj h]
    simp
  · intro h
    have hs : ∀ i, (f i).isSome := fun i => by rw [h i]; rfl
    rw [dif_pos hs]
    congr 1
    funext i
    simp [h i]

theorem normal?_eq_some {v w : Fin 3 → ℝ} (h : normal? v = some w) :
    w ⬝ᵥ w = 1 ∧ ∃ c : ℝ, 0 < c ∧ w = c • v := by
  unfold normal? at h
  split_ifs at h with h0
  have hp : 0 < Real.sqrt (v ⬝ᵥ v) := lt_of_le_of_ne (Real.sqrt_nonneg _) (Ne.symm h0)
  have hs : Real.sqrt (v ⬝ᵥ v) * Real.sqrt (v ⬝ᵥ v) = v ⬝ᵥ v :=
    Real.mul_self_sqrt (Real.sqrt_pos.1 hp).le
  rw [← Option.some.inj h]
  refine ⟨?_, _, inv_pos.2 hp, rfl⟩
  rw [smul_dotProduct, dotProduct_smul, smul_eq_mul, smul_eq_mul]
  field_simp
  linarith

theorem dot3 (v w : Fin 3 → ℝ) : v ⬝ᵥ w = v 0 * w 0 + v 1 * w 1 + v 2 * w 2 := by
  simp [dotProduct, Fin.sum_univ_three]

@[simp] theorem cross3_zero (v w : Fin 3 → ℝ) : cross3 v w 0 = v 1 * w 2 - v 2 * w 1 := rfl
@[simp] theorem cross3_one (v w : Fin 3 → ℝ) : cross3 v w 1 = v 2 * w 0 - v 0 * w 2 := rfl
@[simp] theorem cross3_two (v w : Fin 3 → ℝ) : cross3 v w 2 = v 0 * w 1 - v 1 * w 0 := rfl

/-- The strains in the order of the rows of `B`, from the gradient `H a b = ∂u_b/∂x_a`. -/
def strain6 (H : Matrix (Fin 3) (Fin 3) ℝ) : Fin 6 → ℝ :=
  ![H 0 0, H 1 1, H 2 2, H 0 1 + H 1 0, H 0 2 + H 2 0, H 1 2 + H 2 1]

/-- The rotation of node `i`. -/
def rot6 (u : Fin n × Fin 6 → ℝ) (i : Fin n) : Fin 3 → ℝ := ![u (i, 3), u (i, 4), u (i, 5)]

/-- The translation of node `i`. -/
def trans6 (u : Fin n × Fin 6 → ℝ) (i : Fin n) : Fin 3 → ℝ := ![u (i, 0), u (i, 1), u (i, 2)]

/-- The derivatives, along the axis and the two directions of the section, of the displacement
`∑ N_i (u_i + a/2 s_0 θ_i × v1_i + b/2 s_1 θ_i × v2_i)` of a beam. -/
noncomputable def beamDu (sf : SF ℝ 1 n) (v1 v2 : Matrix (Fin n) (Fin 3) ℝ) (a b : ℝ) (r : Fin 1 → ℝ)
    (s : Fin 2 → ℝ) (u : Fin n × Fin 6 → ℝ) : Matrix (Fin 3) (Fin 3) ℝ :=
  Matrix.of ![fun k => ∑ i, sf.dNdr r 0 i * (trans6 u i k + a / 2 * s 0 * cross3 (rot6 u i) (v1 i) k
      + b / 2 * s 1 * cross3 (rot6 u i) (v2 i) k),
    fun k => ∑ i, sf.N r i * (a / 2 * cross3 (rot6 u i) (v1 i) k),
    fun k => ∑ i, sf.N r i * (b / 2 * cross3 (rot6 u i) (v2 i) k)]

theorem beamGrad (sf : SF ℝ 1 n) (v1 v2 : Matrix (Fin n) (Fin 3) ℝ) (a b : ℝ) (r : Fin 1 → ℝ)
    (s : Fin 2 → ℝ) (u : Fin n × Fin 6 → ℝ) (I : Matrix (Fin 3) (Fin 3) ℝ) (p q : Fin 3) :
    (I * beamDu sf v1 v2 a b r s u) p q = ∑ i, (beamDNdx sf I r p i * trans6 u i q
      + a / 2 * layerDNdx sf (beamDNdx sf I r) I r (s 0) 1 p i * cross3 (rot6 u i) (v1 i) q
      + b / 2 * layerDNdx sf (beamDNdx sf I r) I r (s 1) 2 p i * cross3 (rot6 u i) (v2 i) q) := by
  simp only [Matrix.mul_apply, Fin.sum_univ_three, beamDu, Matrix.of_apply, Matrix.cons_val_zero,
    Matrix.cons_val_one, Matrix.cons_val, Finset.mul_sum, ← Finset.sum_add_distrib, beamDNdx, layerDNdx]
  exact Finset.sum_congr rfl fun i _ => by ring

theorem sum6 (f : Fin n × Fin 6 → ℝ) :
    ∑ p, f p = ∑ i, (f (i, 0) + f (i, 1) + f (i, 2) + f (i, 3) + f (i, 4) + f (i, 5)) := by
  rw [Fintype.sum_prod_type]
  exact Finset.sum_congr rfl fun i _ => by rw [Fin.sum_univ_six]

theorem sum5 (f : Fin n × Fin 5 → ℝ) :
    ∑ p, f p = ∑ i, (f (i, 0) + f (i, 1) + f (i, 2) + f (i, 3) + f (i, 4)) := by
  rw [Fintype.sum_prod_type]
  exact Finset.sum_congr rfl fun i _ => by rw [Fin.sum_univ_five]

theorem beamB_mulVec (sf : SF ℝ 1 n) (v1 v2 : Matrix (Fin n) (Fin 3) ℝ) (a b : ℝ) (r : Fin 1 → ℝ)
    (s : Fin 2 → ℝ) (u : Fin n × Fin 6 → ℝ) (I : Matrix (Fin 3) (Fin 3) ℝ) :
    beamB (beamDNdx sf I r) (layerDNdx sf (beamDNdx sf I r) I r (s 0) 1)
      (layerDNdx sf (beamDNdx sf I r) I r (s 1) 2) v1 v2 a b *ᵥ u =
      strain6 (I * beamDu sf v1 v2 a b r s u) := by
  funext k
  simp only [Matrix.mulVec, dotProduct, sum6]
  fin_cases k <;>
  simp only [strain6, Fin.reduceFinMk, Fin.mk_one, Fin.zero_eta, Matrix.cons_val_zero, Matrix.cons_val_one,
    Matrix.cons_val, beamGrad, ← Finset.sum_add_distrib, beamB, Matrix.of_apply, trans6, rot6,
    cross3_zero, cross3_one, cross3_two] <;>
  exact Finset.sum_congr rfl fun i _ => by ring

/-- The strains of a beam in its local frame. -/
theorem beamP_mulVec (P0 P1 P2 : Fin 3 → ℝ) (H : Matrix (Fin 3) (Fin 3) ℝ) :
    beamP P0 P1 P2 *ᵥ strain6 H = ![P0 ⬝ᵥ (H *ᵥ P0), P0 ⬝ᵥ (H *ᵥ P1) + P1 ⬝ᵥ (H *ᵥ P0),
      P0 ⬝ᵥ (H *ᵥ P2) + P2 ⬝ᵥ (H *ᵥ P0)] := by
  funext k
  fin_cases k <;>
  simp only [Matrix.mulVec, dotProduct, Fin.sum_univ_six, Fin.sum_univ_three, strain6, beamP,
    Fin.reduceFinMk, Fin.mk_one, Fin.zero_eta, Matrix.cons_val_zero, Matrix.cons_val_one, Matrix.cons_val,
    Matrix.of_apply] <;> ring

/-- The strains of a shell in its local frame. -/
theorem shellP_mulVec (P0 P1 P2 : Fin 3 → ℝ) (H : Matrix (Fin 3) (Fin 3) ℝ) :
    shellP P0 P1 P2 *ᵥ strain6 H = ![P0 ⬝ᵥ (H *ᵥ P0), P1 ⬝ᵥ (H *ᵥ P1),
      P0 ⬝ᵥ (H *ᵥ P1) + P1 ⬝ᵥ (H *ᵥ P0), P0 ⬝ᵥ (H *ᵥ P2) + P2 ⬝ᵥ (H *ᵥ P0),
      P1 ⬝ᵥ (H *ᵥ P2) + P2 ⬝ᵥ (H *ᵥ P1)] := by
  funext k
  fin_cases k <;>
  simp only [Matrix.mulVec, dotProduct, Fin.sum_univ_six, Fin.sum_univ_three, strain6, shellP,
    Fin.reduceFinMk, Fin.mk_one, Fin.zero_eta, Matrix.cons_val_zero, Matrix.cons_val_one, Matrix.cons_val,
    Matrix.of_apply] <;> ring

/-- What a successful call of the beam routine returns. -/
theorem beamStiffness_some {sf : SF ℝ 1 n} {ic0 : IC ℝ 1} {ic12 : IC ℝ 2}
    {X V1 V2 : Matrix (Fin n) (Fin 3) ℝ} {E V a b : ℝ}
    {Ke : Matrix (Fin n × Fin 6) (Fin n × Fin 6) ℝ}
    (h : beamStiffness sf ic0 ic12 X V1 V2 E V a b = some Ke) :
    ∃ (v1 v2 : Matrix (Fin n) (Fin 3) ℝ) (D0 : Matrix (Fin 3) (Fin 3) ℝ)
      (P0 P1 P2 : Fin ic0.N → Fin ic12.N → Fin 3 → ℝ),
      (∀ i, normal? (V1 i) = some (v1 i)) ∧ (∀ i, normal? (V2 i) = some (v2 i)) ∧
      beamD0 E V = some D0 ∧
      (∀ g h, (beamJ sf X v1 v2 a b (ic0.points g) (ic12.points h)).det ≠ 0 ∧
        normal? (fun k => ∑ i, v1 i k * sf.N (ic0.points g) i) = some (P1 g h) ∧
        normal? (fun k => ∑ i, v2 i k * sf.N (ic0.points g) i) = some (P2 g h) ∧
        normal? (cross3 (P1 g h) (P2 g h)) = some (P0 g h)) ∧
      Ke = ∑ g, ∑ h, ((beamJ sf X v1 v2 a b (ic0.points g) (ic12.points h)).det *
          ic0.weights g 0 * ic12.weights h 0 * ic12.weights h 1) •
        ((beamB (beamDNdx sf (beamJ sf X v1 v2 a b (ic0.points g) (ic12.points h))⁻¹ (ic0.points g))
            (layerDNdx sf (beamDNdx sf (beamJ sf X v1 v2 a b (ic0.points g) (ic12.points h))⁻¹
              (ic0.points g)) (beamJ sf X v1 v2 a b (ic0.points g) (ic12.points h))⁻¹ (ic0.points g)
              (ic12.points h 0) 1)
            (layerDNdx sf (beamDNdx sf (beamJ sf X v1 v2 a b (ic0.points g) (ic12.points h))⁻¹
              (ic0.points g)) (beamJ sf X v1 v2 a b (ic0.points g) (ic12.points h))⁻¹ (ic0.points g)
              (ic12.points h 1) 2) v1 v2 a b)ᵀ *
          ((beamP (P0 g h) (P1 g h) (P2 g h))ᵀ * D0 * beamP (P0 g h) (P1 g h) (P2 g h)) *
          beamB (beamDNdx sf (beamJ sf X v1 v2 a b (ic0.points g) (ic12.points h))⁻¹ (ic0.points g))
            (layerDNdx sf (beamDNdx sf (beamJ sf X v1 v2 a b (ic0.points g) (ic12.points h))⁻¹
              (ic0.points g)) (beamJ sf X v1 v2 a b (ic0.points g) (ic12.points h))⁻¹ (ic0.points g)
              (ic12.points h 0) 1)
            (layerDNdx sf (beamDNdx sf (beamJ sf X v1 v2 a b (ic0.points g) (ic12.points h))⁻¹
              (ic0.points g)) (beamJ sf X v1 v2 a b (ic0.points g) (ic12.points h))⁻¹ (ic0.points g)
              (ic12.points h 1) 2) v1 v2 a b) := by
  unfold beamStiffness at h
  simp only [Option.bind_eq_bind, Option.pure_def, Option.bind_eq_some_iff, gauss_eq_some] at h
  obtain ⟨v1, hv1, v2, hv2, D0, hD0, v, hv, rfl⟩ := h
  choose w hw e using hv
  choose I hI P1 h1 P2 h2 P0 h0 hk using hw
  refine ⟨v1, v2, D0, P0, P1, P2, allSome_eq_some.1 hv1, allSome_eq_some.1 hv2, hD0,
    fun g h => ⟨(inv?_eq_some.1 (hI g h)).1, h1 g h, h2 g h, h0 g h⟩, ?_⟩
  refine Finset.sum_congr rfl fun g _ => ?_
  rw [e g]
  refine Finset.sum_congr rfl fun h _ => ?_
  rw [← Option.some.inj (hk g h), (inv?_eq_some.1 (hI g h)).2]

/-- What a successful call of one of the shell routines returns. -/
theorem shellWith_some {k : ℕ} {B : Matrix (Fin 3) (Fin n) ℝ → Matrix (Fin 3) (Fin n) ℝ →
      Matrix (Fin n) (Fin 3) ℝ → Matrix (Fin n) (Fin 3) ℝ → ℝ → Matrix (Fin 6) (Fin n × Fin k) ℝ}
    {sf : SF ℝ 2 n} {ic01 : IC ℝ 2} {ic2 : IC ℝ 1} {X : Matrix (Fin n) (Fin 3) ℝ} {E V t : ℝ}
    {Ke : Matrix (Fin n × Fin k) (Fin n × Fin k) ℝ}
    (h : shellWith B sf ic01 ic2 X E V t = some Ke) :
    ∃ (l : Fin 3 → ℝ) (v1 v2 v3 : Matrix (Fin n) (Fin 3) ℝ) (D0 : Matrix (Fin 5) (Fin 5) ℝ)
      (P0 P1 P2 : Fin ic01.N → Fin ic2.N → Fin 3 → ℝ),
      shellL X = some l ∧ (∀ i, shellFrame sf X l i = some (v1 i, v2 i, v3 i)) ∧
      shellD0 E V = some D0 ∧
      (∀ g h, (shellJ sf X v3 t (ic01.points g) (ic2.points h 0)).det ≠ 0 ∧
        normal? (cross3 (shellJ sf X v3 t (ic01.points g) (ic2.points h 0) 0)
          (shellJ sf X v3 t (ic01.points g) (ic2.points h 0) 1)) = some (P2 g h) ∧
        normal? (cross3 l (P2 g h)) = some (P0 g h) ∧
        normal? (cross3 (P2 g h) (P0 g h)) = some (P1 g h)) ∧
      Ke = ∑ g, ∑ h, ((shellJ sf X v3 t (ic01.points g) (ic2.points h 0)).det *
          ic01.weights g 0 * ic01.weights g 1 * ic2.weights h 0) •
        ((B (shellDNdx sf (shellJ sf X v3 t (ic01.points g) (ic2.points h 0))⁻¹ (ic01.points g))
            (layerDNdx sf (shellDNdx sf (shellJ sf X v3 t (ic01.points g) (ic2.points h 0))⁻¹
              (ic01.points g)) (shellJ sf X v3 t (ic01.points g) (ic2.points h 0))⁻¹ (ic01.points g)
              (ic2.points h 0) 2) v1 v2 t)ᵀ *
          ((shellP (P0 g h) (P1 g h) (P2 g h))ᵀ * D0 * shellP (P0 g h) (P1 g h) (P2 g h)) *
          B (shellDNdx sf (shellJ sf X v3 t (ic01.points g) (ic2.points h 0))⁻¹ (ic01.points g))
            (layerDNdx sf (shellDNdx sf (shellJ sf X v3 t (ic01.points g) (ic2.points h 0))⁻¹
              (ic01.points g)) (shellJ sf X v3 t (ic01.points g) (ic2.points h 0))⁻¹ (ic01.points g)
              (ic2.points h 0) 2) v1 v2 t) := by
  unfold shellWith at h
  simp only [Option.bind_eq_bind, Option.pure_def, Option.bind_eq_some_iff, gauss_eq_some] at h
  obtain ⟨l, hl, fr, hfr, D0, hD0, v, hv, rfl⟩ := h
  choose w hw e using hv
  choose I hI P2 h2 P0 h0 P1 h1 hk using hw
  refine ⟨l, Matrix.of fun i => (fr i).1, Matrix.of fun i => (fr i).2.1, Matrix.of fun i => (fr i).2.2,
    D0, P0, P1, P2, hl, allSome_eq_some.1 hfr, hD0,
    fun g h => ⟨(inv?_eq_some.1 (hI g h)).1, h2 g h, h0 g h, h1 g h⟩, ?_⟩
  refine Finset.sum_congr rfl fun g _ => ?_
  rw [e g]
  refine Finset.sum_congr rfl fun h _ => ?_
  rw [← Option.some.inj (hk g h), (inv?_eq_some.1 (hI g h)).2]

theorem isSymm_beamD0 {E V : ℝ} {D0 : Matrix (Fin 3) (Fin 3) ℝ} (h : beamD0 E V = some D0) :
    D0.IsSymm := by
  unfold beamD0 at h
  simp only [Option.bind_eq_bind, Option.pure_def, Option.bind_eq_some_iff, Option.some.injEq] at h
  obtain ⟨G, -, rfl⟩ := h
  ext i j
  fin_cases i <;> fin_cases j <;> rfl

theorem isSymm_shellD0 {E V : ℝ} {D0 : Matrix (Fin 5) (Fin 5) ℝ} (h : shellD0 E V = some D0) :
    D0.IsSymm := by
  unfold shellD0 at h
  simp only [Option.bind_eq_bind, Option.pure_def, Option.bind_eq_some_iff, Option.some.injEq] at h
  obtain ⟨G, -, rfl⟩ := h
  ext i j
  fin_cases i <;> fin_cases j <;> rfl

/-- The frame at a node of a shell is orthonormal and right-handed. -/
theorem shellFrame_some {sf : SF ℝ 2 n} {X : Matrix (Fin n) (Fin 3) ℝ} {l v1 v2 v3 : Fin 3 → ℝ}
    {i : Fin n} (h : shellFrame sf X l i = some (v1, v2, v3)) :
    v1 ⬝ᵥ v1 = 1 ∧ v2 ⬝ᵥ v2 = 1 ∧ v3 ⬝ᵥ v3 = 1 ∧ v1 ⬝ᵥ v3 = 0 ∧ v2 ⬝ᵥ v3 = 0 ∧ v1 ⬝ᵥ v2 = 0 ∧
      cross3 v1 v2 = v3 := by
  unfold shellFrame at h
  simp only [Option.bind_eq_bind, Option.pure_def, Option.bind_eq_some_iff, Option.some.injEq,
    Prod.mk.injEq] at h
  obtain ⟨p, hp, w3, h3, w1, h1, w2, h2, rfl, rfl, rfl⟩ := h
  obtain ⟨n3, -, -, -⟩ := normal?_eq_some h3
  obtain ⟨n1, c1, -, e1⟩ := normal?_eq_some h1
  obtain ⟨n2, c2, p2, e2⟩ := normal?_eq_some h2
  have o13 : w1 ⬝ᵥ w3 = 0 := by
    rw [e1, smul_dotProduct, dot3]; simp only [cross3_zero, cross3_one, cross3_two, smul_eq_mul]; ring
  have o23 : w2 ⬝ᵥ w3 = 0 := by
    rw [e2, smul_dotProduct, dot3]; simp only [cross3_zero, cross3_one, cross3_two, smul_eq_mul]; ring
  have o12 : w1 ⬝ᵥ w2 = 0 := by
    rw [e2, dotProduct_smul, dot3]; simp only [cross3_zero, cross3_one, cross3_two, smul_eq_mul]; ring
  have hc : c2 = 1 := by
    have : c2 * c2 = 1 := by
      have hh : w2 ⬝ᵥ w2 = c2 * c2 * ((w3 ⬝ᵥ w3) * (w1 ⬝ᵥ w1) - (w1 ⬝ᵥ w3) ^ 2) := by
        rw [e2, smul_dotProduct, dotProduct_smul]
        simp only [dot3, cross3_zero, cross3_one, cross3_two, smul_eq_mul]; ring
      rw [n2, n3, n1, o13] at hh
      linarith
    nlinarith
  refine ⟨n1, n2, n3, o13, o23, o12, ?_⟩
  rw [e2, hc, one_smul]
  rw [dot3] at o13 n1
  funext k
  fin_cases k <;>
    simp only [Fin.reduceFinMk, Fin.mk_one, Fin.zero_eta, cross3_zero, cross3_one, cross3_two]
  · linear_combination w3 0 * n1 - w1 0 * o13
  · linear_combination w3 1 * n1 - w1 1 * o13
  · linear_combination w3 2 * n1 - w1 2 * o13

/-- The derivatives, along the surface and through the thickness, of the displacement
`∑ N_i (u_i + t/2 z d_i)` of a shell, `d_i` being the change of the director at node `i`. -/
noncomputable def shellDu (sf : SF ℝ 2 n) (t : ℝ) (r : Fin 2 → ℝ) (z : ℝ) (u d : Fin n → Fin 3 → ℝ) :
    Matrix (Fin 3) (Fin 3) ℝ :=
  Matrix.of ![fun k => ∑ i, sf.dNdr r 0 i * (u i k + t / 2 * z * d i k),
    fun k => ∑ i, sf.dNdr r 1 i * (u i k + t / 2 * z * d i k),
    fun k => ∑ i, sf.N r i * (t / 2 * d i k)]

theorem shellGrad (sf : SF ℝ 2 n) (t : ℝ) (r : Fin 2 → ℝ) (z : ℝ) (u d : Fin n → Fin 3 → ℝ)
    (I : Matrix (Fin 3) (Fin 3) ℝ) (p q : Fin 3) :
    (I * shellDu sf t r z u d) p q = ∑ i, (shellDNdx sf I r p i * u i q
      + t / 2 * layerDNdx sf (shellDNdx sf I r) I r z 2 p i * d i q) := by
  simp only [Matrix.mul_apply, Fin.sum_univ_three, shellDu, Matrix.of_apply, Matrix.cons_val_zero,
    Matrix.cons_val_one, Matrix.cons_val, Finset.mul_sum, ← Finset.sum_add_distrib, shellDNdx, layerDNdx]
  exact Finset.sum_congr rfl fun i _ => by ring

/-- The translation of node `i`. -/
def trans5 (u : Fin n × Fin 5 → ℝ) (i : Fin n) : Fin 3 → ℝ := ![u (i, 0), u (i, 1), u (i, 2)]

/-- The change of the director at node `i` of the shell with five unknowns. -/
noncomputable def director5 (v1 v2 : Matrix (Fin n) (Fin 3) ℝ) (u : Fin n × Fin 5 → ℝ) (i : Fin n) :
    Fin 3 → ℝ := u (i, 4) • v1 i - u (i, 3) • v2 i

/-- The change of the director at node `i` of the shell with six unknowns. -/
noncomputable def director6 (v1 v2 : Matrix (Fin n) (Fin 3) ℝ) (u : Fin n × Fin 6 → ℝ) (i : Fin n) :
    Fin 3 → ℝ := (rot6 u i ⬝ᵥ v2 i) • v1 i - (rot6 u i ⬝ᵥ v1 i) • v2 i

theorem shellB_mulVec (sf : SF ℝ 2 n) (v1 v2 : Matrix (Fin n) (Fin 3) ℝ) (t : ℝ) (r : Fin 2 → ℝ)
    (z : ℝ) (u : Fin n × Fin 5 → ℝ) (I : Matrix (Fin 3) (Fin 3) ℝ) :
    shellB (shellDNdx sf I r) (layerDNdx sf (shellDNdx sf I r) I r z 2) v1 v2 t *ᵥ u =
      strain6 (I * shellDu sf t r z (trans5 u) (director5 v1 v2 u)) := by
  funext k
  simp only [Matrix.mulVec, dotProduct, sum5]
  fin_cases k <;>
  simp only [strain6, Fin.reduceFinMk, Fin.mk_one, Fin.zero_eta, Matrix.cons_val_zero, Matrix.cons_val_one,
    Matrix.cons_val, shellGrad, ← Finset.sum_add_distrib, shellB, Matrix.of_apply, trans5, director5,
    Pi.sub_apply, Pi.smul_apply, smul_eq_mul] <;>
  exact Finset.sum_congr rfl fun i _ => by ring

theorem shellB2_mulVec (sf : SF ℝ 2 n) (v1 v2 : Matrix (Fin n) (Fin 3) ℝ) (t : ℝ) (r : Fin 2 → ℝ)
    (z : ℝ) (u : Fin n × Fin 6 → ℝ) (I : Matrix (Fin 3) (Fin 3) ℝ) :
    shellB2 (shellDNdx sf I r) (layerDNdx sf (shellDNdx sf I r) I r z 2) v1 v2 t *ᵥ u =
      strain6 (I * shellDu sf t r z (trans6 u) (director6 v1 v2 u)) := by
  funext k
  simp only [Matrix.mulVec, dotProduct, sum6]
  fin_cases k <;>
  simp only [strain6, Fin.reduceFinMk, Fin.mk_one, Fin.zero_eta, Matrix.cons_val_zero, Matrix.cons_val_one,
    Matrix.cons_val, shellGrad, ← Finset.sum_add_distrib, shellB2, Matrix.of_apply, trans6, director6,
    rot6, dot3, Pi.sub_apply, Pi.smul_apply, smul_eq_mul] <;>
  exact Finset.sum_congr rfl fun i _ => by ring

/-- A rigid rotation has a skew gradient, hence no strain: `H = J⁻¹ Du` with `Du` the image of the
rows of `J`. -/
theorem strain6_rigid {J D : Matrix (Fin 3) (Fin 3) ℝ} (hJ : J.det ≠ 0) (w : Fin 3 → ℝ)
    (hD : ∀ p, D p = cross3 w (J p)) : strain6 (J⁻¹ * D) = 0 := by
  have hDJ : D = J * Matrix.of ![![0, w 2, -w 1], ![-w 2, 0, w 0], ![w 1, -w 0, 0]] := by
    ext p q
    rw [hD p, Matrix.mul_apply, Fin.sum_univ_three]
    fin_cases q <;>
    simp only [Fin.reduceFinMk, Fin.mk_one, Fin.zero_eta, cross3_zero, cross3_one, cross3_two,
      Matrix.of_apply, Matrix.cons_val_zero, Matrix.cons_val_one, Matrix.cons_val] <;> ring
  rw [hDJ, Matrix.nonsing_inv_mul_cancel_left J _ (Ne.isUnit hJ)]
  funext k
  fin_cases k <;> simp [strain6]

end Pansfem
