/-
C81 The Wilson-Taylor element and constant states.
C82 Homogenisation.
-/
import Verif.Props.C34_Energy
import Verif.Props.C79_Patch
import Mathlib.LinearAlgebra.Matrix.ToLinearEquiv

namespace Pansfem

open Matrix

/-! ### C81: the Wilson-Taylor element -/

section Form
variable {K : Type} [Field K] [LinearOrder K] [IsStrictOrderedRing K]

/-- A vector of zero energy of a symmetric non-negative form is in the kernel. -/
theorem mulVec_eq_zero_of_form {ι : Type} [Fintype ι] {A : Matrix ι ι K} (hs : Aᵀ = A)
    (hA : NonnegForm A) {w : ι → K} (hw : w ⬝ᵥ (A *ᵥ w) = 0) : A *ᵥ w = 0 := by
  set v := A *ᵥ w with hv
  have hsym : ∀ x y : ι → K, x ⬝ᵥ (A *ᵥ y) = y ⬝ᵥ (A *ᵥ x) := by
    intro x y
    rw [Matrix.dotProduct_mulVec, ← Matrix.mulVec_transpose, hs, dotProduct_comm]
  have key : ∀ s : K, 0 ≤ 2 * s * (v ⬝ᵥ v) + s ^ 2 * (v ⬝ᵥ (A *ᵥ v)) := by
    intro s
    have h := hA (w + s • v)
    rw [Matrix.mulVec_add, Matrix.mulVec_smul, dotProduct_add, add_dotProduct, add_dotProduct,
      dotProduct_smul, dotProduct_smul, smul_dotProduct, smul_dotProduct, hw, hsym w v, ← hv] at h
    simp only [smul_eq_mul] at h
    linarith [h]
  have hc := hA v
  have hvv : 0 ≤ v ⬝ᵥ v := by
    rw [dotProduct]; exact Finset.sum_nonneg fun i _ => mul_self_nonneg _
  have hz : v ⬝ᵥ v = 0 := by
    by_contra hne
    have hpos : 0 < v ⬝ᵥ v := lt_of_le_of_ne hvv (Ne.symm hne)
    rcases hc.eq_or_lt with h0 | h0
    · have := key (-1)
      rw [← h0] at this
      linarith
    · have := key (-(v ⬝ᵥ v) / (v ⬝ᵥ (A *ᵥ v)))
      have e : 2 * (-(v ⬝ᵥ v) / (v ⬝ᵥ (A *ᵥ v))) * (v ⬝ᵥ v) +
          (-(v ⬝ᵥ v) / (v ⬝ᵥ (A *ᵥ v))) ^ 2 * (v ⬝ᵥ (A *ᵥ v)) =
          -((v ⬝ᵥ v) ^ 2 / (v ⬝ᵥ (A *ᵥ v))) := by field_simp; ring
      rw [e] at this
      have : 0 < (v ⬝ᵥ v) ^ 2 / (v ⬝ᵥ (A *ᵥ v)) := by positivity
      linarith
  ext i
  have := (Finset.sum_eq_zero_iff_of_nonneg fun i _ => mul_self_nonneg (v i)).1 hz i
    (Finset.mem_univ i)
  simpa using this

variable {n : ℕ} {sf : SF K 2 n} {ic : IC K 2} {X : Matrix (Fin n) (Fin 2) K} {t : K}

/-- The strain of the incompatible modes with the amplitudes `a` at an integration point. -/
noncomputable def modeStrain (sf : SF K 2 n) (ic : IC K 2) (X : Matrix (Fin n) (Fin 2) K) (a : Fin 4 → K)
    (g : Fin ic.N) : Fin 3 → K := planeG (ic.points g) (sf.dNdr (ic.points g) * X)⁻¹ *ᵥ a

/-- The load of a constant stress on the incompatible modes: it vanishes exactly when the modes do no
work on constant stresses. -/
noncomputable def modeLoad (sf : SF K 2 n) (ic : IC K 2) (X : Matrix (Fin n) (Fin 2) K) (s : Fin 3 → K) :
    Fin 4 → K :=
  ∑ g, measure2 sf ic X g • ((planeG (ic.points g) (sf.dNdr (ic.points g) * X)⁻¹)ᵀ *ᵥ s)

/-- **C81**, what the element is: its energy is the least energy that the incompatible modes can
reach, and some amplitudes reach it. -/
theorem C81_condensation (hm : ∀ g, 0 ≤ measure2 sf ic X g) (ht : 0 ≤ t)
    {D : Matrix (Fin 3) (Fin 3) K} (hs : Dᵀ = D) (hD : NonnegForm D)
    {Ke : Matrix (Fin n × Fin 2) (Fin n × Fin 2) K}
    (h : planeStiffnessWilsonTaylor sf ic X D t = some Ke) (u : Fin n × Fin 2 → K) :
    (∀ a, u ⬝ᵥ (Ke *ᵥ u) ≤ ∑ g, measure2 sf ic X g * t *
      ((strain2 (gradAt sf X (ic.points g)) u + modeStrain sf ic X a g) ⬝ᵥ
        (D *ᵥ (strain2 (gradAt sf X (ic.points g)) u + modeStrain sf ic X a g)))) ∧
    ∃ a, u ⬝ᵥ (Ke *ᵥ u) = ∑ g, measure2 sf ic X g * t *
      ((strain2 (gradAt sf X (ic.points g)) u + modeStrain sf ic X a g) ⬝ᵥ
        (D *ᵥ (strain2 (gradAt sf X (ic.points g)) u + modeStrain sf ic X a g))) := by
  obtain ⟨hr, Kaa, Kad, Kdd, h0, hdd, haa, had, rfl⟩ := planeStiffnessWilsonTaylor_eq_some.1 h
  set B := fun g => planeB (gradAt sf X (ic.points g)) with hB
  set G := fun g => planeG (ic.points g) (sf.dNdr (ic.points g) * X)⁻¹ with hG
  set c := fun g => measure2 sf ic X g * t with hcdef
  have hc : ∀ g, 0 ≤ c g := fun g => mul_nonneg (hm g) ht
  have hKs : Kaaᵀ = Kaa := by
    rw [haa, Matrix.transpose_sum]
    refine Finset.sum_congr rfl fun g _ => ?_
    rw [Matrix.transpose_smul, Matrix.transpose_mul, Matrix.transpose_mul,
      Matrix.transpose_transpose, hs, Matrix.mul_assoc]
  have hKn : NonnegForm Kaa := by
    rw [haa]; exact nonnegForm_sum_congr hc hD
  have hsum : ∀ a, u ⬝ᵥ (Kdd *ᵥ u) + 2 * (a ⬝ᵥ (Kad *ᵥ u)) + a ⬝ᵥ (Kaa *ᵥ a) =
      ∑ g, c g * ((B g *ᵥ u + G g *ᵥ a) ⬝ᵥ (D *ᵥ (B g *ᵥ u + G g *ᵥ a))) := by
    intro a
    have cross : a ⬝ᵥ (Kad *ᵥ u) = ∑ g, c g * ((G g *ᵥ a) ⬝ᵥ (D *ᵥ (B g *ᵥ u))) := by
      rw [had, mulVec_sum, dotProduct_sum]
      refine Finset.sum_congr rfl fun g _ => ?_
      rw [Matrix.smul_mulVec, dotProduct_smul, smul_eq_mul, ← Matrix.mulVec_mulVec,
        ← Matrix.mulVec_mulVec, Matrix.dotProduct_mulVec, Matrix.vecMul_transpose]
    rw [cross, hdd, haa, dot_sum_congr_transform, dot_sum_congr_transform, Finset.mul_sum,
      ← Finset.sum_add_distrib, ← Finset.sum_add_distrib]
    refine Finset.sum_congr rfl fun g _ => ?_
    have hsw : (B g *ᵥ u) ⬝ᵥ (D *ᵥ (G g *ᵥ a)) = (G g *ᵥ a) ⬝ᵥ (D *ᵥ (B g *ᵥ u)) := by
      rw [Matrix.dotProduct_mulVec, ← Matrix.mulVec_transpose, hs, dotProduct_comm]
    rw [Matrix.mulVec_add, add_dotProduct, dotProduct_add, dotProduct_add, hsw]
    ring
  set v := Kad *ᵥ u with hv
  set b : Fin 4 → K := Kaa⁻¹ *ᵥ v with hb
  have hbv : Kaa *ᵥ b = v := by
    rw [hb, Matrix.mulVec_mulVec, Matrix.mul_nonsing_inv _ (Ne.isUnit h0), Matrix.one_mulVec]
  have hval : u ⬝ᵥ ((Kdd - Kadᵀ * Kaa⁻¹ * Kad) *ᵥ u) = u ⬝ᵥ (Kdd *ᵥ u) - b ⬝ᵥ (Kaa *ᵥ b) := by
    rw [hbv, Matrix.sub_mulVec, dotProduct_sub, ← Matrix.mulVec_mulVec, ← Matrix.mulVec_mulVec,
      Matrix.dotProduct_mulVec u Kadᵀ, Matrix.vecMul_transpose, ← hv, ← hb, dotProduct_comm b]
  have hsq : ∀ a, u ⬝ᵥ (Kdd *ᵥ u) + 2 * (a ⬝ᵥ v) + a ⬝ᵥ (Kaa *ᵥ a) =
      u ⬝ᵥ (Kdd *ᵥ u) - b ⬝ᵥ (Kaa *ᵥ b) + (a + b) ⬝ᵥ (Kaa *ᵥ (a + b)) := by
    intro a
    have : b ⬝ᵥ (Kaa *ᵥ a) = a ⬝ᵥ (Kaa *ᵥ b) := by
      rw [Matrix.dotProduct_mulVec, ← Matrix.mulVec_transpose, hKs, dotProduct_comm]
    rw [Matrix.mulVec_add, add_dotProduct, dotProduct_add, dotProduct_add, this, hbv]
    ring
  have hst : ∀ a, (∑ g, measure2 sf ic X g * t *
      ((strain2 (gradAt sf X (ic.points g)) u + modeStrain sf ic X a g) ⬝ᵥ
        (D *ᵥ (strain2 (gradAt sf X (ic.points g)) u + modeStrain sf ic X a g)))) =
      ∑ g, c g * ((B g *ᵥ u + G g *ᵥ a) ⬝ᵥ (D *ᵥ (B g *ᵥ u + G g *ᵥ a))) := by
    intro a
    refine Finset.sum_congr rfl fun g _ => ?_
    simp only [hB, hG, hcdef, planeB_mulVec, modeStrain]
  constructor
  · intro a
    rw [hst, ← hsum, hsq, hval]
    have := hKn (a + b)
    linarith
  · refine ⟨-b, ?_⟩
    rw [hst, ← hsum, hsq, hval, neg_add_cancel, Matrix.mulVec_zero, dotProduct_zero, add_zero]

/-- **C81**, the element and constant states: the energy of an affine field is the exact one if and
only if its stress does no work on the incompatible modes. -/
theorem C81_iff (hc : Complete sf) (hm : ∀ g, 0 ≤ measure2 sf ic X g) (ht : 0 < t)
    {D : Matrix (Fin 3) (Fin 3) K} (hs : Dᵀ = D) (hD : NonnegForm D)
    {Ke : Matrix (Fin n × Fin 2) (Fin n × Fin 2) K}
    (h : planeStiffnessWilsonTaylor sf ic X D t = some Ke) (b : Fin 2 → K)
    (L : Matrix (Fin 2) (Fin 2) K) :
    affineField X b L ⬝ᵥ (Ke *ᵥ affineField X b L) =
      t * area sf ic X * (smallStrain2 L ⬝ᵥ (D *ᵥ smallStrain2 L)) ↔
      modeLoad sf ic X (D *ᵥ smallStrain2 L) = 0 := by
  obtain ⟨hr, Kaa, Kad, Kdd, h0, hdd, haa, had, rfl⟩ := planeStiffnessWilsonTaylor_eq_some.1 h
  have hc' : ∀ g, 0 ≤ measure2 sf ic X g * t := fun g => mul_nonneg (hm g) ht.le
  have hKs : Kaaᵀ = Kaa := by
    rw [haa, Matrix.transpose_sum]
    refine Finset.sum_congr rfl fun g _ => ?_
    rw [Matrix.transpose_smul, Matrix.transpose_mul, Matrix.transpose_mul,
      Matrix.transpose_transpose, hs, Matrix.mul_assoc]
  have hKn : NonnegForm Kaa := by
    rw [haa]; exact nonnegForm_sum_congr hc' hD
  set u := affineField X b L with hu
  have hv : Kad *ᵥ u = t • modeLoad sf ic X (D *ᵥ smallStrain2 L) := by
    rw [had, mulVec_sum, modeLoad, Finset.smul_sum]
    refine Finset.sum_congr rfl fun g _ => ?_
    rw [Matrix.smul_mulVec, ← Matrix.mulVec_mulVec, ← Matrix.mulVec_mulVec, planeB_mulVec, hu,
      strain2_affine hc (hr g), smul_smul, mul_comm]
  have hd : u ⬝ᵥ (Kdd *ᵥ u) = t * area sf ic X * (smallStrain2 L ⬝ᵥ (D *ᵥ smallStrain2 L)) :=
    C79_planeStiffness hc ((planeStiffness_eq_some sf ic X).2 ⟨hr, hdd⟩) b b L L
  set v := Kad *ᵥ u with hvd
  set w : Fin 4 → K := Kaa⁻¹ *ᵥ v with hw
  have hwv : Kaa *ᵥ w = v := by
    rw [hw, Matrix.mulVec_mulVec, Matrix.mul_nonsing_inv _ (Ne.isUnit h0), Matrix.one_mulVec]
  have hval : u ⬝ᵥ ((Kdd - Kadᵀ * Kaa⁻¹ * Kad) *ᵥ u) = u ⬝ᵥ (Kdd *ᵥ u) - w ⬝ᵥ (Kaa *ᵥ w) := by
    rw [hwv, Matrix.sub_mulVec, dotProduct_sub, ← Matrix.mulVec_mulVec, ← Matrix.mulVec_mulVec,
      Matrix.dotProduct_mulVec u Kadᵀ, Matrix.vecMul_transpose, ← hvd, ← hw, dotProduct_comm w]
  rw [hval, hd]
  constructor
  · intro he
    have hz : w ⬝ᵥ (Kaa *ᵥ w) = 0 := by linarith
    have hv0 : v = 0 := by rw [← hwv]; exact mulVec_eq_zero_of_form hKs hKn hz
    rw [hv0] at hv
    exact (smul_eq_zero.1 hv.symm).resolve_left ht.ne'
  · intro he
    have hv0 : v = 0 := by rw [hv, he, smul_zero]
    have hw0 : w = 0 := by rw [hw, hv0, Matrix.mulVec_zero]
    rw [hw0, zero_dotProduct, sub_zero]

/-- **C81** for parallelograms: with a rule that integrates the coordinates to zero, the
four-node element has the exact energy for every affine field.  What is missing for the full claim
is every other shape, see `C81_false`. -/
theorem C81_parallelogram_partial {ic : IC K 2} {X : Matrix (Fin 4) (Fin 2) K}
    (hX : ∀ k, X 0 k - X 1 k + X 2 k - X 3 k = 0)
    (hi : ∀ k, ∑ g, ic.weights g 0 * ic.weights g 1 * ic.points g k = 0)
    (hm : ∀ g, 0 ≤ measure2 SF.square4 ic X g) (ht : 0 < t) {D : Matrix (Fin 3) (Fin 3) K}
    (hs : Dᵀ = D) (hD : NonnegForm D) {Ke : Matrix (Fin 4 × Fin 2) (Fin 4 × Fin 2) K}
    (h : planeStiffnessWilsonTaylor SF.square4 ic X D t = some Ke) (b : Fin 2 → K)
    (L : Matrix (Fin 2) (Fin 2) K) :
    affineField X b L ⬝ᵥ (Ke *ᵥ affineField X b L) =
      t * area SF.square4 ic X * (smallStrain2 L ⬝ᵥ (D *ᵥ smallStrain2 L)) := by
  refine (C81_iff complete_square4 hm ht hs hD h b L).2 ?_
  set J : Matrix (Fin 2) (Fin 2) K := SF.square4.dNdr 0 * X with hJ
  have hconst : ∀ r, SF.square4.dNdr r * X = J := by
    intro r
    ext l k
    have := hX k
    rw [hJ, Matrix.mul_apply, Matrix.mul_apply]
    fin_cases l <;> simp [SF.square4, Fin.sum_univ_succ]
    · linear_combination r 1 / 4 * this
    · linear_combination r 0 / 4 * this
  have hG : ∀ r : Fin 2 → K, planeG r J⁻¹ = r 0 • planeG ![1, 0] J⁻¹ + r 1 • planeG ![0, 1] J⁻¹ := by
    intro r
    ext p q
    fin_cases p <;> fin_cases q <;>
      simp [planeG, Matrix.mul_apply, Fin.sum_univ_succ] <;> ring
  have hsum : ∀ k, ∑ g, measure2 SF.square4 ic X g * ic.points g k = 0 := by
    intro k
    have : ∀ g, measure2 SF.square4 ic X g * ic.points g k =
        J.det * (ic.weights g 0 * ic.weights g 1 * ic.points g k) := by
      intro g; rw [measure2, hconst]; ring
    rw [Finset.sum_congr rfl fun g _ => this g, ← Finset.mul_sum, hi, mul_zero]
  rw [modeLoad]
  set s := D *ᵥ smallStrain2 L
  have : ∀ g, measure2 SF.square4 ic X g •
      ((planeG (ic.points g) (SF.square4.dNdr (ic.points g) * X)⁻¹)ᵀ *ᵥ s) =
      (measure2 SF.square4 ic X g * ic.points g 0) • ((planeG ![1, 0] J⁻¹)ᵀ *ᵥ s) +
      (measure2 SF.square4 ic X g * ic.points g 1) • ((planeG ![0, 1] J⁻¹)ᵀ *ᵥ s) := by
    intro g
    rw [hconst, hG, Matrix.transpose_add, Matrix.transpose_smul, Matrix.transpose_smul,
      Matrix.add_mulVec, Matrix.smul_mulVec, Matrix.smul_mulVec, smul_add, smul_smul, smul_smul]
  rw [Finset.sum_congr rfl fun g _ => this g, Finset.sum_add_distrib, ← Finset.sum_smul,
    ← Finset.sum_smul, hsum, hsum, zero_smul, zero_smul, add_zero]

end Form

/-! The counterexample: a trapezoid with the rule `Gauss4Square`. -/

/-- The corners of a trapezoid. -/
def trapezoid : Matrix (Fin 4) (Fin 2) ℝ := !![-2, -1; 2, -1; 1, 1; -1, 1]

theorem trapezoid_jac (r : Fin 2 → ℝ) :
    SF.square4.dNdr r * trapezoid = !![(3 - r 1) / 2, 0; -r 0 / 2, 1] := by
  ext i j
  rw [Matrix.mul_apply]
  fin_cases i <;> fin_cases j <;> simp [SF.square4, trapezoid, Fin.sum_univ_succ] <;> ring

theorem trapezoid_inv {r : Fin 2 → ℝ} (hr : 3 - r 1 ≠ 0) :
    (SF.square4.dNdr r * trapezoid)⁻¹ = !![2 / (3 - r 1), 0; r 0 / (3 - r 1), 1] := by
  rw [trapezoid_jac]
  refine Matrix.inv_eq_right_inv ?_
  ext i j
  fin_cases i <;> fin_cases j <;> simp [Matrix.mul_apply, Fin.sum_univ_succ] <;> field_simp <;> ring

theorem gauss4_coord (g : Fin IC.gauss4Square.N) (k : Fin 2) :
    IC.gauss4Square.points g k ^ 2 = 1 / 3 ∧ |IC.gauss4Square.points g k| < 1 := by
  have h3 : (√3 : ℝ) ^ 2 = 3 := Real.sq_sqrt (by norm_num)
  have h0 : (0 : ℝ) < √3 := Real.sqrt_pos.2 (by norm_num)
  have key : ∀ x : ℝ, x ^ 2 = 1 / 3 → x ^ 2 = 1 / 3 ∧ |x| < 1 := fun x hx =>
    ⟨hx, by rw [← Real.sqrt_sq_eq_abs, hx, Real.sqrt_lt' one_pos]; norm_num⟩
  refine key _ ?_
  change Fin 4 at g
  fin_cases g <;> fin_cases k <;> simp [IC.gauss4Square, div_pow, h3]

theorem gauss4_lt (g : Fin IC.gauss4Square.N) (k : Fin 2) :
    0 < 3 - IC.gauss4Square.points g k := by
  have := (abs_lt.1 (gauss4_coord g k).2).2
  linarith

theorem trapezoid_measure (g : Fin IC.gauss4Square.N) :
    measure2 SF.square4 IC.gauss4Square trapezoid g = (3 - IC.gauss4Square.points g 1) / 2 := by
  have hw : ∀ k, IC.gauss4Square.weights g k = 1 := by
    intro k
    change Fin 4 at g
    fin_cases g <;> fin_cases k <;> rfl
  rw [measure2, trapezoid_jac, hw, hw, Matrix.det_fin_two]
  simp

theorem trapezoid_G {r : Fin 2 → ℝ} (h0 : 3 - r 1 ≠ 0) :
    planeG r !![2 / (3 - r 1), 0; r 0 / (3 - r 1), 1] =
      !![-4 * r 0 / (3 - r 1), 0, 0, 0;
        0, -2 * r 0 ^ 2 / (3 - r 1), 0, -2 * r 1;
        -2 * r 0 ^ 2 / (3 - r 1), -4 * r 0 / (3 - r 1), -2 * r 1, 0] := by
  ext p q
  fin_cases p <;> fin_cases q <;>
    simp [planeG, Matrix.mul_apply, Fin.sum_univ_succ] <;> field_simp <;> ring

theorem trapezoid_mode (g : Fin IC.gauss4Square.N) (a : Fin 4 → ℝ) :
    modeStrain SF.square4 IC.gauss4Square trapezoid a g =
      ![-4 * IC.gauss4Square.points g 0 / (3 - IC.gauss4Square.points g 1) * a 0,
        -(2 / 3) / (3 - IC.gauss4Square.points g 1) * a 1 - 2 * IC.gauss4Square.points g 1 * a 3,
        -(2 / 3) / (3 - IC.gauss4Square.points g 1) * a 0 -
          4 * IC.gauss4Square.points g 0 / (3 - IC.gauss4Square.points g 1) * a 1 -
          2 * IC.gauss4Square.points g 1 * a 2] := by
  have h0 := (gauss4_lt g 1).ne'
  have h2 := (gauss4_coord g 0).1
  rw [modeStrain, trapezoid_inv h0, trapezoid_G h0, h2]
  ext q
  fin_cases q <;> simp [Matrix.mulVec, dotProduct, Fin.sum_univ_succ] <;> ring

/-- The element of the trapezoid is defined. -/
theorem trapezoid_defined {D : Matrix (Fin 3) (Fin 3) ℝ}
    (hD : ∀ e, e ⬝ᵥ (D *ᵥ e) = 0 → e = 0) (hD0 : NonnegForm D) :
    ∃ Ke, planeStiffnessWilsonTaylor SF.square4 IC.gauss4Square trapezoid D 1 = some Ke := by
  have hreg : Regular SF.square4 IC.gauss4Square trapezoid := by
    intro g
    rw [trapezoid_jac, Matrix.det_fin_two]
    have := gauss4_lt g 1
    simp
    linarith
  have hpos : ∀ g, 0 < measure2 SF.square4 IC.gauss4Square trapezoid g * (1 : ℝ) := by
    intro g
    rw [trapezoid_measure, mul_one]
    exact half_pos (gauss4_lt g 1)
  refine ⟨_, planeStiffnessWilsonTaylor_eq_some.2 ⟨hreg, _, _, _, ?_, rfl, rfl, rfl, rfl⟩⟩
  intro hdet
  obtain ⟨a, ha, h0⟩ := Matrix.exists_mulVec_eq_zero_iff.2 hdet
  have hz : a ⬝ᵥ ((∑ g, (measure2 SF.square4 IC.gauss4Square trapezoid g * (1 : ℝ)) •
      ((planeG (IC.gauss4Square.points g) (SF.square4.dNdr (IC.gauss4Square.points g) *
        trapezoid)⁻¹)ᵀ * D * planeG (IC.gauss4Square.points g)
          (SF.square4.dNdr (IC.gauss4Square.points g) * trapezoid)⁻¹)) *ᵥ a) = 0 := by
    rw [h0, dotProduct_zero]
  rw [dot_sum_congr_transform, Finset.sum_eq_zero_iff_of_nonneg
    fun g _ => mul_nonneg (hpos g).le (hD0 _)] at hz
  have hm : ∀ g, modeStrain SF.square4 IC.gauss4Square trapezoid a g = 0 := fun g =>
    hD _ ((mul_eq_zero.1 (hz g (Finset.mem_univ g))).resolve_left (hpos g).ne')
  have h3 : (√3 : ℝ) ^ 2 = 3 := Real.sq_sqrt (by norm_num)
  have h3p : (0 : ℝ) < √3 := Real.sqrt_pos.2 (by norm_num)
  have hne : ∀ g k, IC.gauss4Square.points g k ≠ 0 := by
    intro g k hk
    have := (gauss4_coord g k).1
    rw [hk] at this
    norm_num at this
  have e0 : a 0 = 0 := by
    have := congrFun ((trapezoid_mode (0 : Fin 4) a).symm.trans (hm (0 : Fin 4))) 0
    simp only [Matrix.cons_val_zero, Pi.zero_apply] at this
    refine (mul_eq_zero.1 this).resolve_left ?_
    exact div_ne_zero (mul_ne_zero (by norm_num) (hne (0 : Fin 4) 0)) (gauss4_lt (0 : Fin 4) 1).ne'
  have r1 : ∀ g : Fin 4, -(2 / 3) / (3 - IC.gauss4Square.points g 1) * a 1 -
      2 * IC.gauss4Square.points g 1 * a 3 = 0 := fun g => by
    have := congrFun ((trapezoid_mode g a).symm.trans (hm g)) 1
    simpa using this
  have p0 : IC.gauss4Square.points (0 : Fin 4) 1 = -(1 / √3) := by
    simp [IC.gauss4Square, neg_div]
  have p2 : IC.gauss4Square.points (2 : Fin 4) 1 = 1 / √3 := by
    simp [IC.gauss4Square]
  have q0 := r1 0
  have q2 := r1 2
  have l0 := gauss4_lt (0 : Fin 4) 1
  have l2 := gauss4_lt (2 : Fin 4) 1
  rw [p0] at q0 l0
  rw [p2] at q2 l2
  have e1 : a 1 = 0 := by
    have hs : (1 / (3 - -(1 / √3)) + 1 / (3 - 1 / √3)) * a 1 = 0 := by
      linear_combination (-3 / 2) * q0 + (-3 / 2) * q2
    refine (mul_eq_zero.1 hs).resolve_left ?_
    have := one_div_pos.2 l0
    have := one_div_pos.2 l2
    positivity
  have e3 : a 3 = 0 := by
    rw [e1, mul_zero, zero_sub, neg_eq_zero] at q2
    exact (mul_eq_zero.1 q2).resolve_left (by positivity)
  have e2 : a 2 = 0 := by
    have := congrFun ((trapezoid_mode (2 : Fin 4) a).symm.trans (hm (2 : Fin 4))) 2
    simp only [Matrix.cons_val, Pi.zero_apply] at this
    rw [e0, e1, p2, mul_zero, mul_zero, sub_zero, zero_sub, neg_eq_zero] at this
    exact (mul_eq_zero.1 this).resolve_left (by positivity)
  refine ha ?_
  ext i
  fin_cases i
  exacts [e0, e1, e2, e3]

/-- **C81** fails: the trapezoid has too little energy in simple shear. -/
theorem C81_false : ¬ ∀ (X : Matrix (Fin 4) (Fin 2) ℝ) (E V t : ℝ)
    (Ke : Matrix (Fin 4 × Fin 2) (Fin 4 × Fin 2) ℝ), 0 < E → 0 < t → -1 < V → 2 * V < 1 →
    (∀ g, 0 < measure2 SF.square4 IC.gauss4Square X g) →
    planeStrainStiffnessWilsonTaylor SF.square4 IC.gauss4Square X E V t = some Ke →
    ∀ (b : Fin 2 → ℝ) (L : Matrix (Fin 2) (Fin 2) ℝ),
      affineField X b L ⬝ᵥ (Ke *ᵥ affineField X b L) = t * area SF.square4 IC.gauss4Square X *
        ∑ i, ∑ j, planeTensor (smallStrain2 L) 0 i j *
          hooke (lameLambda E V) (shearModulus E V) (planeTensor (smallStrain2 L) 0) i j := by
  intro hall
  have hD : planeStrainD (1 : ℝ) 0 = some ((1 : ℝ) • planeStrainD0 0) := by
    refine planeStrainD_eq_some.2 ⟨by norm_num, by norm_num⟩
  rw [one_smul] at hD
  have hn : NonnegForm (planeStrainD0 (0 : ℝ)) :=
    nonnegForm_planeStrainD zero_le_one (by norm_num) (by norm_num) hD
  have hform : ∀ e, e ⬝ᵥ (planeStrainD0 (0 : ℝ) *ᵥ e) = 0 → e = 0 := by
    intro e he
    rw [form_planeStrainD0] at he
    have h1 := sq_nonneg (e 0 + e 1)
    have h2 := sq_nonneg (e 0 - e 1)
    have h3 := sq_nonneg (e 2)
    have z1 : (e 0 + e 1) ^ 2 = 0 := by linarith
    have z2 : (e 0 - e 1) ^ 2 = 0 := by linarith
    have z3 : e 2 ^ 2 = 0 := by linarith
    rw [pow_eq_zero_iff (by norm_num)] at z1 z2 z3
    ext q
    fin_cases q
    · show e 0 = 0; linarith
    · show e 1 = 0; linarith
    · exact z3
  obtain ⟨Ke, h⟩ := trapezoid_defined hform hn
  have hm : ∀ g, 0 < measure2 SF.square4 IC.gauss4Square trapezoid g := by
    intro g
    rw [trapezoid_measure]
    exact half_pos (gauss4_lt g 1)
  have hbad := hall trapezoid 1 0 1 Ke one_pos one_pos (by norm_num) (by norm_num) hm
    (planeStrainStiffnessWilsonTaylor_eq_some.2 ⟨_, hD, h⟩) 0 !![0, 1; 0, 0]
  have hsig : planeStrainD0 (0 : ℝ) *ᵥ smallStrain2 !![0, 1; 0, 0] = ![0, 0, 1 / 2] := by
    ext q
    fin_cases q <;>
      simp [planeStrainD0, smallStrain2, Matrix.mulVec, dotProduct, Fin.sum_univ_succ]
  have hload := (C81_iff complete_square4 (fun g => (hm g).le) one_pos (isSymm_planeStrainD hD) hn h
    0 !![0, 1; 0, 0]).1 (by
      rw [hbad, C80_planeStrain hD]
      congr 1
      simp [dotProduct, Fin.sum_univ_succ, planeTensor, hooke, smallStrain2]
      ring)
  rw [hsig] at hload
  have h0 := congrFun hload 0
  rw [modeLoad] at h0
  have hterm : ∀ g, (measure2 SF.square4 IC.gauss4Square trapezoid g •
      ((planeG (IC.gauss4Square.points g) (SF.square4.dNdr (IC.gauss4Square.points g) *
        trapezoid)⁻¹)ᵀ *ᵥ ![0, 0, 1 / 2])) 0 = -(1 / 6) := by
    intro g
    have hne := (gauss4_lt g 1).ne'
    have h2 := (gauss4_coord g 0).1
    rw [trapezoid_measure, trapezoid_inv hne, trapezoid_G hne, h2]
    simp [Matrix.mulVec, dotProduct, Fin.sum_univ_succ]
    field_simp
    norm_num
  rw [Finset.sum_apply, Finset.sum_congr rfl fun g _ => hterm g, Finset.sum_const] at h0
  norm_num [IC.gauss4Square] at h0

/-! ### C82: homogenisation -/

section Homogenisation
variable {K : Type} [Field K] [DecidableEq K] {n : ℕ} {sf : SF K 2 n} {ic : IC K 2}
  {X : Matrix (Fin n) (Fin 2) K} {CHI : Matrix (Fin n × Fin 2) (Fin 3) K} {E V t : K}

/-- The strain left at an integration point when the macroscopic strain `e` is relaxed by the
characteristic displacement `CHI e`. -/
noncomputable def localStrain (sf : SF K 2 n) (ic : IC K 2) (X : Matrix (Fin n) (Fin 2) K)
    (CHI : Matrix (Fin n × Fin 2) (Fin 3) K) (e : Fin 3 → K) (g : Fin ic.N) : Fin 3 → K :=
  e - strain2 (gradAt sf X (ic.points g)) (CHI *ᵥ e)

theorem homogenizeBodyForce_eq_some {F : Matrix (Fin n × Fin 2) (Fin 3) K} :
    homogenizeBodyForce sf ic X E V t = some F ↔ ∃ D, planeStrainD E V = some D ∧
      Regular sf ic X ∧ F = ∑ g, (measure2 sf ic X g * t) •
        ((planeB (gradAt sf X (ic.points g)))ᵀ * D) := by
  simp only [homogenizeBodyForce, Option.bind_eq_bind, Option.bind_eq_some_iff, loop2_some, smul_smul]

theorem homogenizeConstitutive_eq_some {C : Matrix (Fin 3) (Fin 3) K} :
    homogenizeConstitutive sf ic X CHI E V t = some C ↔ ∃ D, planeStrainD E V = some D ∧
      Regular sf ic X ∧ C = ∑ g, (measure2 sf ic X g * t) •
        (D * (1 - planeB (gradAt sf X (ic.points g)) * CHI)) := by
  simp only [homogenizeConstitutive, Option.bind_eq_bind, Option.bind_eq_some_iff, loop2_some,
    smul_smul]

/-- **C82** for `HomogenizePlaneStrainBodyForce`: the load of the macroscopic strain `H` is the load
that the affine displacement with this strain needs. -/
theorem C82_bodyForce (hc : Complete sf) {F : Matrix (Fin n × Fin 2) (Fin 3) K}
    {Ke : Matrix (Fin n × Fin 2) (Fin n × Fin 2) K}
    (hF : homogenizeBodyForce sf ic X E V t = some F)
    (hK : planeStrainStiffness sf ic X E V t = some Ke) (a : Fin 2 → K)
    (H : Matrix (Fin 2) (Fin 2) K) : F *ᵥ smallStrain2 H = Ke *ᵥ affineField X a H := by
  obtain ⟨D, hD, hr, rfl⟩ := homogenizeBodyForce_eq_some.1 hF
  obtain ⟨D', hD', hK⟩ := planeStrainStiffness_eq_some.1 hK
  obtain rfl : D = D' := Option.some.inj (hD.symm.trans hD')
  obtain ⟨-, rfl⟩ := (planeStiffness_eq_some sf ic X).1 hK
  rw [mulVec_sum, mulVec_sum]
  refine Finset.sum_congr rfl fun g _ => ?_
  rw [Matrix.smul_mulVec, Matrix.smul_mulVec, ← Matrix.mulVec_mulVec _ (_ * D), planeB_mulVec,
    strain2_affine hc (hr g)]

theorem mulVec_local (e : Fin 3 → K) (g : Fin ic.N) :
    (1 - planeB (gradAt sf X (ic.points g)) * CHI) *ᵥ e = localStrain sf ic X CHI e g := by
  rw [Matrix.sub_mulVec, Matrix.one_mulVec, ← Matrix.mulVec_mulVec, planeB_mulVec, localStrain]

/-- **C82** for `HomogenizePlaneStrainConstitutive`: the energy of two macroscopic strains is the
energy of the relaxed strains plus the work of the first characteristic displacement on the
out-of-balance load of the second. -/
theorem C82_energy {C : Matrix (Fin 3) (Fin 3) K} {F : Matrix (Fin n × Fin 2) (Fin 3) K}
    {Ke : Matrix (Fin n × Fin 2) (Fin n × Fin 2) K} {D : Matrix (Fin 3) (Fin 3) K}
    (hD : planeStrainD E V = some D)
    (hC : homogenizeConstitutive sf ic X CHI E V t = some C)
    (hF : homogenizeBodyForce sf ic X E V t = some F)
    (hK : planeStrainStiffness sf ic X E V t = some Ke) (e e' : Fin 3 → K) :
    e ⬝ᵥ (C *ᵥ e') = (∑ g, measure2 sf ic X g * t *
        (localStrain sf ic X CHI e g ⬝ᵥ (D *ᵥ localStrain sf ic X CHI e' g))) +
      (CHI *ᵥ e) ⬝ᵥ (F *ᵥ e' - Ke *ᵥ (CHI *ᵥ e')) := by
  obtain ⟨D', hD', hr, rfl⟩ := homogenizeBodyForce_eq_some.1 hF
  obtain rfl : D = D' := Option.some.inj (hD.symm.trans hD')
  obtain ⟨D', hD', -, rfl⟩ := homogenizeConstitutive_eq_some.1 hC
  obtain rfl : D = D' := Option.some.inj (hD.symm.trans hD')
  obtain ⟨D', hD', hK⟩ := planeStrainStiffness_eq_some.1 hK
  obtain rfl : D = D' := Option.some.inj (hD.symm.trans hD')
  obtain ⟨-, rfl⟩ := (planeStiffness_eq_some sf ic X).1 hK
  rw [dotProduct_sub, mulVec_sum, mulVec_sum, mulVec_sum, dotProduct_sum, dotProduct_sum,
    dotProduct_sum, ← Finset.sum_sub_distrib, ← Finset.sum_add_distrib]
  refine Finset.sum_congr rfl fun g _ => ?_
  rw [Matrix.smul_mulVec, Matrix.smul_mulVec, Matrix.smul_mulVec, dotProduct_smul, dotProduct_smul,
    dotProduct_smul, ← Matrix.mulVec_mulVec, mulVec_local, dotProduct_congr_transform,
    ← Matrix.mulVec_mulVec, Matrix.dotProduct_mulVec (CHI *ᵥ e) _ᵀ, Matrix.vecMul_transpose,
    planeB_mulVec, planeB_mulVec]
  simp only [localStrain, sub_dotProduct, Matrix.mulVec_sub, dotProduct_sub, smul_eq_mul]
  ring

/-- **C82** for `HomogenizePlaneStrainCheck`: it is the change of the mean strain by which the
constitutive matrix differs from the unrelaxed one. -/
theorem C82_check {C Q : Matrix (Fin 3) (Fin 3) K} {D : Matrix (Fin 3) (Fin 3) K}
    (hD : planeStrainD E V = some D)
    (hC : homogenizeConstitutive sf ic X CHI E V t = some C)
    (hQ : homogenizeCheck sf ic X CHI t = some Q) :
    C = D * ((t * area sf ic X) • (1 : Matrix (Fin 3) (Fin 3) K) + Q) := by
  obtain ⟨D', hD', hr, rfl⟩ := homogenizeConstitutive_eq_some.1 hC
  obtain rfl : D = D' := Option.some.inj (hD.symm.trans hD')
  rw [homogenizeCheck, loop2_some] at hQ
  obtain ⟨-, rfl⟩ := hQ
  rw [area_eq, Finset.mul_sum, Finset.sum_smul, ← Finset.sum_add_distrib, Matrix.mul_sum]
  refine Finset.sum_congr rfl fun g _ => ?_
  rw [Matrix.mul_add, Matrix.mul_smul, Matrix.mul_smul, Matrix.mul_smul, Matrix.mul_sub, smul_sub,
    Matrix.mul_one, mul_comm t, smul_smul, Matrix.neg_mul, Matrix.mul_neg, smul_neg, sub_eq_add_neg]

/-- **C82**: without relaxation the constitutive matrix is thickness times area times `D`. -/
theorem C82_unrelaxed {C D : Matrix (Fin 3) (Fin 3) K} (hD : planeStrainD E V = some D)
    (hC : homogenizeConstitutive sf ic X 0 E V t = some C) : C = (t * area sf ic X) • D := by
  obtain ⟨D', hD', hr, rfl⟩ := homogenizeConstitutive_eq_some.1 hC
  obtain rfl : D = D' := Option.some.inj (hD.symm.trans hD')
  rw [area_eq, Finset.mul_sum, Finset.sum_smul]
  refine Finset.sum_congr rfl fun g _ => ?_
  rw [Matrix.mul_zero, sub_zero, Matrix.mul_one, mul_comm]

/-- **C82**: if the characteristic displacements follow the macroscopic strain everywhere, nothing is
left, and the check returns minus the measure. -/
theorem C82_follow (hc : Complete sf) {C Q : Matrix (Fin 3) (Fin 3) K}
    (hC : homogenizeConstitutive sf ic X CHI E V t = some C)
    (hQ : homogenizeCheck sf ic X CHI t = some Q)
    (hf : ∀ e : Fin 3 → K, ∃ a H, smallStrain2 H = e ∧ CHI *ᵥ e = affineField X a H) :
    C = 0 ∧ Q = -((t * area sf ic X) • (1 : Matrix (Fin 3) (Fin 3) K)) := by
  have hB : ∀ g, Regular sf ic X → planeB (gradAt sf X (ic.points g)) * CHI = 1 := by
    intro g hr
    refine Matrix.ext_of_mulVec_single fun j => ?_
    obtain ⟨a, H, h1, h2⟩ := hf (Pi.single j 1)
    rw [← Matrix.mulVec_mulVec, h2, planeB_mulVec, strain2_affine hc (hr g), h1, Matrix.one_mulVec]
  obtain ⟨D, hD, hr, rfl⟩ := homogenizeConstitutive_eq_some.1 hC
  rw [homogenizeCheck, loop2_some] at hQ
  obtain ⟨-, rfl⟩ := hQ
  constructor
  · refine Finset.sum_eq_zero fun g _ => ?_
    rw [hB g hr, sub_self, Matrix.mul_zero, smul_zero]
  · rw [area_eq, Finset.mul_sum, Finset.sum_smul, ← Finset.sum_neg_distrib]
    refine Finset.sum_congr rfl fun g _ => ?_
    rw [Matrix.neg_mul, hB g hr, smul_smul, smul_neg, mul_comm]

end Homogenisation

section HomogenisedCell
variable {K : Type} [Field K] [LinearOrder K] [IsStrictOrderedRing K] {n : ℕ} {ι : Type} [Fintype ι]
  {sf : SF K 2 n} {ic : IC K 2} {X : ι → Matrix (Fin n) (Fin 2) K}
  {CHI : ι → Matrix (Fin n × Fin 2) (Fin 3) K} {E V : ι → K} {t : K}

/-- **C82** for a cell of many elements with different materials: if the characteristic displacements
balance the loads of the cell (summed over the elements, tested with themselves), the sum of the
element matrices is symmetric, non-negative and at most the unrelaxed one. -/
theorem C82_cell (hm : ∀ i g, 0 ≤ measure2 sf ic (X i) g) (ht : 0 ≤ t) (hE : ∀ i, 0 ≤ E i)
    (h1 : ∀ i, -1 < V i) (h2 : ∀ i, 2 * V i < 1) {C D : ι → Matrix (Fin 3) (Fin 3) K}
    {F : ι → Matrix (Fin n × Fin 2) (Fin 3) K}
    {Ke : ι → Matrix (Fin n × Fin 2) (Fin n × Fin 2) K}
    (hD : ∀ i, planeStrainD (E i) (V i) = some (D i))
    (hC : ∀ i, homogenizeConstitutive sf ic (X i) (CHI i) (E i) (V i) t = some (C i))
    (hF : ∀ i, homogenizeBodyForce sf ic (X i) (E i) (V i) t = some (F i))
    (hK : ∀ i, planeStrainStiffness sf ic (X i) (E i) (V i) t = some (Ke i))
    (heq : ∀ e e', ∑ i, (CHI i *ᵥ e) ⬝ᵥ (F i *ᵥ e' - Ke i *ᵥ (CHI i *ᵥ e')) = 0) :
    (∑ i, C i)ᵀ = ∑ i, C i ∧ NonnegForm (∑ i, C i) ∧
      ∀ e, e ⬝ᵥ ((∑ i, C i) *ᵥ e) ≤
        ∑ i, t * area sf ic (X i) * (e ⬝ᵥ (D i *ᵥ e)) := by
  have hdot : ∀ e e', e ⬝ᵥ ((∑ i, C i) *ᵥ e') = ∑ i, e ⬝ᵥ (C i *ᵥ e') := by
    intro e e'
    rw [Matrix.sum_mulVec, dotProduct_sum]
  have hen : ∀ e e', e ⬝ᵥ ((∑ i, C i) *ᵥ e') = ∑ i, ∑ g, measure2 sf ic (X i) g * t *
      (localStrain sf ic (X i) (CHI i) e g ⬝ᵥ (D i *ᵥ localStrain sf ic (X i) (CHI i) e' g)) := by
    intro e e'
    rw [hdot, Finset.sum_congr rfl fun i _ => C82_energy (hD i) (hC i) (hF i) (hK i) e e',
      Finset.sum_add_distrib, heq, add_zero]
  have hDs : ∀ i (x y : Fin 3 → K), x ⬝ᵥ (D i *ᵥ y) = y ⬝ᵥ (D i *ᵥ x) := by
    intro i x y
    rw [Matrix.dotProduct_mulVec, ← Matrix.mulVec_transpose, isSymm_planeStrainD (hD i),
      dotProduct_comm]
  have hDn : ∀ i, NonnegForm (D i) := fun i => nonnegForm_planeStrainD (hE i) (h1 i) (h2 i) (hD i)
  refine ⟨?_, ?_, ?_⟩
  · ext p q
    have a := hen (Pi.single p 1) (Pi.single q 1)
    have b := hen (Pi.single q 1) (Pi.single p 1)
    rw [Matrix.mulVec_single_one, single_one_dotProduct] at a b
    show (∑ i, C i) q p = (∑ i, C i) p q
    have a' : (∑ i, C i) p q = _ := a
    have b' : (∑ i, C i) q p = _ := b
    rw [a', b']
    refine Finset.sum_congr rfl fun i _ => Finset.sum_congr rfl fun g _ => ?_
    rw [hDs]
  · intro e
    rw [hen]
    exact Finset.sum_nonneg fun i _ => Finset.sum_nonneg fun g _ =>
      mul_nonneg (mul_nonneg (hm i g) ht) (hDn i _)
  · intro e
    -- `e·C e = ∑ (e - s)·D e` and `∑ s·D (e - s) = 0`
    have hbal : ∑ i, ∑ g, measure2 sf ic (X i) g * t *
        (strain2 (gradAt sf (X i) (ic.points g)) (CHI i *ᵥ e) ⬝ᵥ
          (D i *ᵥ localStrain sf ic (X i) (CHI i) e g)) = 0 := by
      rw [← heq e e]
      refine Finset.sum_congr rfl fun i _ => ?_
      obtain ⟨D', hD', hr, hFi⟩ := homogenizeBodyForce_eq_some.1 (hF i)
      obtain rfl : D i = D' := Option.some.inj ((hD i).symm.trans hD')
      obtain ⟨D', hD', hKi⟩ := planeStrainStiffness_eq_some.1 (hK i)
      obtain rfl : D i = D' := Option.some.inj ((hD i).symm.trans hD')
      obtain ⟨-, hKi⟩ := (planeStiffness_eq_some sf ic (X i)).1 hKi
      rw [hFi, hKi, dotProduct_sub, mulVec_sum, mulVec_sum, dotProduct_sum, dotProduct_sum,
        ← Finset.sum_sub_distrib]
      refine Finset.sum_congr rfl fun g _ => ?_
      rw [Matrix.smul_mulVec, Matrix.smul_mulVec, dotProduct_smul, dotProduct_smul,
        dotProduct_congr_transform, ← Matrix.mulVec_mulVec,
        Matrix.dotProduct_mulVec (CHI i *ᵥ e) _ᵀ, Matrix.vecMul_transpose, planeB_mulVec]
      simp only [localStrain, Matrix.mulVec_sub, dotProduct_sub, smul_eq_mul]
      ring
    have harea : ∑ i, t * area sf ic (X i) * (e ⬝ᵥ (D i *ᵥ e)) =
        ∑ i, ∑ g, measure2 sf ic (X i) g * t * (e ⬝ᵥ (D i *ᵥ e)) := by
      refine Finset.sum_congr rfl fun i _ => ?_
      rw [area_eq, Finset.mul_sum, Finset.sum_mul]
      exact Finset.sum_congr rfl fun g _ => by ring
    have hpt : ∀ i g, e ⬝ᵥ (D i *ᵥ e) =
        localStrain sf ic (X i) (CHI i) e g ⬝ᵥ (D i *ᵥ localStrain sf ic (X i) (CHI i) e g) +
        2 * (strain2 (gradAt sf (X i) (ic.points g)) (CHI i *ᵥ e) ⬝ᵥ
          (D i *ᵥ localStrain sf ic (X i) (CHI i) e g)) +
        strain2 (gradAt sf (X i) (ic.points g)) (CHI i *ᵥ e) ⬝ᵥ
          (D i *ᵥ strain2 (gradAt sf (X i) (ic.points g)) (CHI i *ᵥ e)) := by
      intro i g
      set s := strain2 (gradAt sf (X i) (ic.points g)) (CHI i *ᵥ e) with hs
      have hl : localStrain sf ic (X i) (CHI i) e g = e - s := rfl
      rw [hl, Matrix.mulVec_sub, sub_dotProduct, dotProduct_sub, dotProduct_sub, hDs i e s]
      ring
    have hsplit : ∑ i, ∑ g, measure2 sf ic (X i) g * t * (e ⬝ᵥ (D i *ᵥ e)) =
        (∑ i, ∑ g, measure2 sf ic (X i) g * t * (localStrain sf ic (X i) (CHI i) e g ⬝ᵥ
          (D i *ᵥ localStrain sf ic (X i) (CHI i) e g))) +
        2 * (∑ i, ∑ g, measure2 sf ic (X i) g * t *
          (strain2 (gradAt sf (X i) (ic.points g)) (CHI i *ᵥ e) ⬝ᵥ
            (D i *ᵥ localStrain sf ic (X i) (CHI i) e g))) +
        ∑ i, ∑ g, measure2 sf ic (X i) g * t *
          (strain2 (gradAt sf (X i) (ic.points g)) (CHI i *ᵥ e) ⬝ᵥ
            (D i *ᵥ strain2 (gradAt sf (X i) (ic.points g)) (CHI i *ᵥ e))) := by
      simp only [Finset.mul_sum, ← Finset.sum_add_distrib]
      refine Finset.sum_congr rfl fun i _ => Finset.sum_congr rfl fun g _ => ?_
      rw [hpt i g]
      ring
    rw [hen, harea, hsplit, hbal, mul_zero, add_zero, le_add_iff_nonneg_right]
    exact Finset.sum_nonneg fun i _ => Finset.sum_nonneg fun g _ =>
      mul_nonneg (mul_nonneg (hm i g) ht) (hDn i _)

end HomogenisedCell

/-- The hypotheses of C82 on the example triangle: the routines are defined, with characteristic
displacements that follow the strain, and also without. -/
example : (∃ F, homogenizeBodyForce (SF.triangle3 : SF ℚ 2 3) exRule exTri 1 (1 / 4) 1 = some F) ∧
    ∀ CHI, (∃ C, homogenizeConstitutive (SF.triangle3 : SF ℚ 2 3) exRule exTri CHI 1 (1 / 4) 1 =
      some C) ∧ ∃ Q, homogenizeCheck (SF.triangle3 : SF ℚ 2 3) exRule exTri CHI 1 = some Q := by
  have hD : ∃ D, planeStrainD (1 : ℚ) (1 / 4) = some D := by norm_num [planeStrainD, div?]
  obtain ⟨D, hD⟩ := hD
  exact ⟨⟨_, homogenizeBodyForce_eq_some.2 ⟨D, hD, exTri_regular, rfl⟩⟩, fun CHI =>
    ⟨⟨_, homogenizeConstitutive_eq_some.2 ⟨D, hD, exTri_regular, rfl⟩⟩,
      ⟨_, loop2_some.2 ⟨exTri_regular, rfl⟩⟩⟩⟩

/-- Characteristic displacements that follow the strain, as in `C82_follow`. -/
example (e : Fin 3 → ℚ) : ∃ a H, smallStrain2 H = e ∧
    (Matrix.of fun (p : Fin 3 × Fin 2) (q : Fin 3) =>
      affineField exTri 0 (![!![1, 0; 0, 0], !![0, 0; 0, 1], !![0, 1; 0, 0]] q) p) *ᵥ e =
      affineField exTri a H := by
  refine ⟨0, !![e 0, e 2; 0, e 1], ?_, ?_⟩
  · ext q; fin_cases q <;> simp [smallStrain2]
  · ext p
    obtain ⟨i, k⟩ := p
    fin_cases k <;>
      simp [affineField, Matrix.mulVec, dotProduct, Fin.sum_univ_succ] <;> ring

/-- The parallelogram hypotheses of C81 hold for the unit square with the rule `Gauss4Square`. -/
example : (∀ k, (!![-1, -1; 1, -1; 1, 1; -1, 1] : Matrix (Fin 4) (Fin 2) ℝ) 0 k -
      (!![-1, -1; 1, -1; 1, 1; -1, 1] : Matrix (Fin 4) (Fin 2) ℝ) 1 k +
      (!![-1, -1; 1, -1; 1, 1; -1, 1] : Matrix (Fin 4) (Fin 2) ℝ) 2 k -
      (!![-1, -1; 1, -1; 1, 1; -1, 1] : Matrix (Fin 4) (Fin 2) ℝ) 3 k = 0) ∧
    ∀ k, ∑ g, IC.gauss4Square.weights g 0 * IC.gauss4Square.weights g 1 *
      IC.gauss4Square.points g k = 0 := by
  constructor
  · intro k; fin_cases k <;> simp
  · intro k
    show ∑ g : Fin 4, IC.gauss4Square.weights g 0 * IC.gauss4Square.weights g 1 *
      IC.gauss4Square.points g k = 0
    fin_cases k <;> simp [IC.gauss4Square, Fin.sum_univ_succ] <;> ring

end Pansfem
