/-
Tensors that depend on a parameter, and the element matrices made from them.
-/
import Verif.Spec.ProgramLattice
import Verif.Lemmas.ComplianceForm
import Verif.Lemmas.ProgramDesign
import Verif.Lemmas.ProgramVibration
import Verif.Lemmas.Elastic
import Verif.Props.C40_General
import Mathlib.Analysis.Calculus.Deriv.Mul
import Mathlib.Analysis.SpecialFunctions.Trigonometric.Deriv
import Mathlib.Topology.Order.Compact
import Mathlib.Analysis.Normed.Group.Bounded
import Mathlib.Analysis.Normed.Module.FiniteDimension

noncomputable section

open Matrix

namespace Pansfem

/-! ### Matrices that depend on a parameter -/

section
variable {ι κ ν : Type}

/-- The entries have the derivatives `F'` at `y`. -/
def EntryDeriv (F : ℝ → Matrix ι κ ℝ) (F' : Matrix ι κ ℝ) (y : ℝ) : Prop :=
  ∀ i j, HasDerivAt (fun s => F s i j) (F' i j) y

theorem EntryDeriv.mul [Fintype κ] {F : ℝ → Matrix ι κ ℝ} {G : ℝ → Matrix κ ν ℝ} {F' : Matrix ι κ ℝ} {G' : Matrix κ ν ℝ} {y : ℝ}
    (hF : EntryDeriv F F' y) (hG : EntryDeriv G G' y) : EntryDeriv (fun s => F s * G s) (F' * G y + F y * G') y := by
  intro i j
  have h := HasDerivAt.fun_sum (u := Finset.univ) fun k _ => (hF i k).mul (hG k j)
  simp only [Matrix.mul_apply, Matrix.add_apply, ← Finset.sum_add_distrib]
  exact h

theorem EntryDeriv.const (A : Matrix ι κ ℝ) (y : ℝ) : EntryDeriv (fun _ => A) 0 y := fun _ _ => hasDerivAt_const _ _

theorem EntryDeriv.transpose {F : ℝ → Matrix ι κ ℝ} {F' : Matrix ι κ ℝ} {y : ℝ} (h : EntryDeriv F F' y) :
    EntryDeriv (fun s => (F s)ᵀ) F'ᵀ y := fun i j => h j i

end

theorem tensor_form (D : Matrix (Fin 3) (Fin 3) ℝ) (v w : Fin 3 → ℝ) :
    v ⬝ᵥ (D *ᵥ w) = ∑ i, ∑ j, D i j * (v i * w j) := by
  simp only [dotProduct, mulVec, Finset.mul_sum]
  refine Finset.sum_congr rfl fun i _ => Finset.sum_congr rfl fun j _ => ?_
  ring

/-- The form of a positive definite tensor is bounded below. -/
theorem PosTensor.coercive {D : Matrix (Fin 3) (Fin 3) ℝ} (h : PosTensor D) :
    ∃ c, 0 < c ∧ ∀ v, c * ‖v‖ ^ 2 ≤ v ⬝ᵥ (D *ᵥ v) := by
  have hc : Continuous fun v : Fin 3 → ℝ => v ⬝ᵥ (D *ᵥ v) := by
    simp only [tensor_form]
    fun_prop
  obtain ⟨w, hw, hmin⟩ := (isCompact_sphere (0 : Fin 3 → ℝ) 1).exists_isMinOn
    ⟨fun _ => 1, by rw [mem_sphere_zero_iff_norm, pi_norm_const]; simp⟩ hc.continuousOn
  have hw0 : w ≠ 0 := by
    rintro rfl
    simp at hw
  refine ⟨w ⬝ᵥ (D *ᵥ w), h.2 w hw0, fun v => ?_⟩
  by_cases hv : v = 0
  · simp [hv]
  have hn : ‖v‖ ≠ 0 := norm_ne_zero_iff.2 hv
  have hmem : ‖v‖⁻¹ • v ∈ Metric.sphere (0 : Fin 3 → ℝ) 1 := by
    rw [mem_sphere_zero_iff_norm, norm_smul, norm_inv, norm_norm, inv_mul_cancel₀ hn]
  have := hmin hmem
  simp only [mulVec_smul, smul_dotProduct, dotProduct_smul, smul_eq_mul, Set.mem_ofPred_eq] at this
  have hpos : 0 < ‖v‖ ^ 2 := by positivity
  calc _ ≤ ‖v‖⁻¹ * (‖v‖⁻¹ * (v ⬝ᵥ (D *ᵥ v))) * ‖v‖ ^ 2 := mul_le_mul_of_nonneg_right this hpos.le
    _ = _ := by field_simp

/-- Near a positive definite tensor the change of the form is small compared to the form. -/
theorem tensor_relative {D : ℝ → Matrix (Fin 3) (Fin 3) ℝ} {D' : Matrix (Fin 3) (Fin 3) ℝ} {y₀ : ℝ}
    (hD : EntryDeriv D D' y₀) (hp : PosTensor (D y₀)) :
    ∃ M, ∀ᶠ y in nhds y₀, ∀ v : Fin 3 → ℝ, |v ⬝ᵥ (D y *ᵥ v) - v ⬝ᵥ (D y₀ *ᵥ v)| ≤
      M * |y - y₀| * (v ⬝ᵥ (D y₀ *ᵥ v)) := by
  obtain ⟨c, hc, hcv⟩ := hp.coercive
  have hb : ∀ i j, ∃ L, 0 ≤ L ∧ ∀ᶠ y in nhds y₀, |D y i j - D y₀ i j| ≤ L * |y - y₀| := by
    intro i j
    obtain ⟨L, hL⟩ := (hD i j).isBigO_sub.bound
    refine ⟨|L|, abs_nonneg _, ?_⟩
    filter_upwards [hL] with y hy
    refine (show |D y i j - D y₀ i j| ≤ L * |y - y₀| from hy).trans ?_
    exact mul_le_mul_of_nonneg_right (le_abs_self L) (abs_nonneg _)
  choose L hL0 hL using hb
  refine ⟨(∑ i, ∑ j, L i j) / c, ?_⟩
  have hall : ∀ᶠ y in nhds y₀, ∀ i j, |D y i j - D y₀ i j| ≤ L i j * |y - y₀| :=
    Filter.eventually_all.2 fun i => Filter.eventually_all.2 fun j => hL i j
  filter_upwards [hall] with y hy v
  have hS : 0 ≤ ∑ i, ∑ j, L i j := Finset.sum_nonneg fun i _ => Finset.sum_nonneg fun j _ => hL0 i j
  calc |v ⬝ᵥ (D y *ᵥ v) - v ⬝ᵥ (D y₀ *ᵥ v)| = |∑ i, ∑ j, (D y i j - D y₀ i j) * (v i * v j)| := by
        rw [tensor_form, tensor_form]
        simp only [sub_mul, Finset.sum_sub_distrib]
    _ ≤ ∑ i, ∑ j, L i j * |y - y₀| * ‖v‖ ^ 2 := by
        refine (Finset.abs_sum_le_sum_abs _ _).trans (Finset.sum_le_sum fun i _ =>
          (Finset.abs_sum_le_sum_abs _ _).trans (Finset.sum_le_sum fun j _ => ?_))
        rw [abs_mul, abs_mul]
        have h1 : |v i| ≤ ‖v‖ := norm_le_pi_norm v i
        have h2 : |v j| ≤ ‖v‖ := norm_le_pi_norm v j
        have h3 : |v i| * |v j| ≤ ‖v‖ ^ 2 := by
          rw [sq]; exact mul_le_mul h1 h2 (abs_nonneg _) (norm_nonneg _)
        exact mul_le_mul (hy i j) h3 (by positivity) (mul_nonneg (hL0 i j) (abs_nonneg _))
    _ = (∑ i, ∑ j, L i j) * |y - y₀| * ‖v‖ ^ 2 := by simp only [Finset.sum_mul]
    _ ≤ (∑ i, ∑ j, L i j) / c * |y - y₀| * (v ⬝ᵥ (D y₀ *ᵥ v)) := by
        have := mul_le_mul_of_nonneg_left (hcv v)
          (show 0 ≤ (∑ i, ∑ j, L i j) / c * |y - y₀| by positivity)
        calc _ = (∑ i, ∑ j, L i j) / c * |y - y₀| * (c * ‖v‖ ^ 2) := by field_simp
          _ ≤ _ := this

/-- Near a positive definite tensor the tensors are positive definite. -/
theorem tensor_near {D : ℝ → Matrix (Fin 3) (Fin 3) ℝ} {D' : Matrix (Fin 3) (Fin 3) ℝ} {y₀ : ℝ}
    (hD : EntryDeriv D D' y₀) (hs : ∀ y, (D y)ᵀ = D y) (hp : PosTensor (D y₀)) : ∀ᶠ y in nhds y₀, PosTensor (D y) := by
  obtain ⟨M, hM⟩ := tensor_relative hD hp
  have h2 : ∀ᶠ y in nhds y₀, |M| * |y - y₀| < 1 := by
    have : ContinuousAt (fun y : ℝ => |M| * |y - y₀|) y₀ := by fun_prop
    exact this.eventually (gt_mem_nhds (by simp))
  filter_upwards [hM, h2] with y h1 h2
  refine ⟨hs y, fun v hv => ?_⟩
  have hp0 := hp.2 v hv
  have h3 := (abs_le.1 (h1 v)).1
  have h4 : M * |y - y₀| ≤ |M| * |y - y₀| := mul_le_mul_of_nonneg_right (le_abs_self M) (abs_nonneg _)
  nlinarith

/-! ### Element matrices -/

section
variable {n : ℕ} (sf : SF ℝ 2 n) (ic : IC ℝ 2) (x : List (Vec ℝ)) (e : List ℕ)

/-- The stiffness of an element. -/
def stiffMat (D : Matrix (Fin 3) (Fin 3) ℝ) : Matrix (Fin n × Fin 2) (Fin n × Fin 2) ℝ :=
  ∑ g, (measure2 sf ic (nodeRows n x e) g * 1) • ((planeB (gradAt sf (nodeRows n x e) (ic.points g)))ᵀ * D *
    planeB (gradAt sf (nodeRows n x e) (ic.points g)))

/-- One element of the loops. -/
def stiffItem (D : Matrix (Fin 3) (Fin 3) ℝ) : ElemData ℝ := ⟨flatM (stiffMat sf ic x e D), interTable 2 n [0, 1], e⟩

/-- The form of an element. -/
def stiffForm (D : Matrix (Fin 3) (Fin 3) ℝ) : (ℕ → ℕ → ℝ) →ₗ[ℝ] (ℕ → ℕ → ℝ) →ₗ[ℝ] ℝ :=
  LinearMap.mk₂ ℝ (fun v w => localField [0, 1] e v ⬝ᵥ (stiffMat sf ic x e D *ᵥ localField [0, 1] e w))
    (fun a b w => by rw [show localField (n := n) (k := 2) [0, 1] e (a + b) =
      localField [0, 1] e a + localField [0, 1] e b from rfl, add_dotProduct])
    (fun c a w => by rw [show localField (n := n) (k := 2) [0, 1] e (c • a) = c • localField [0, 1] e a from rfl,
      smul_dotProduct])
    (fun a v w => by rw [show localField (n := n) (k := 2) [0, 1] e (v + w) =
      localField [0, 1] e v + localField [0, 1] e w from rfl, mulVec_add, dotProduct_add])
    (fun c a w => by rw [show localField (n := n) (k := 2) [0, 1] e (c • w) = c • localField [0, 1] e w from rfl,
      mulVec_smul, dotProduct_smul])

theorem stiffForm_apply (D : Matrix (Fin 3) (Fin 3) ℝ) (v w : ℕ → ℕ → ℝ) : stiffForm sf ic x e D v w =
    ∑ g, measure2 sf ic (nodeRows n x e) g * 1 *
      ((planeB (gradAt sf (nodeRows n x e) (ic.points g)) *ᵥ localField [0, 1] e v) ⬝ᵥ
        (D *ᵥ (planeB (gradAt sf (nodeRows n x e) (ic.points g)) *ᵥ localField [0, 1] e w))) := by
  show localField [0, 1] e v ⬝ᵥ (stiffMat sf ic x e D *ᵥ localField [0, 1] e w) = _
  unfold stiffMat
  rw [dot_sum_congr_transform]

theorem stiffForm_symm {D : Matrix (Fin 3) (Fin 3) ℝ} (h : Dᵀ = D) (v w : ℕ → ℕ → ℝ) :
    stiffForm sf ic x e D v w = stiffForm sf ic x e D w v := by
  rw [stiffForm_apply, stiffForm_apply]
  refine Finset.sum_congr rfl fun g _ => ?_
  rw [dotProduct_mulVec, dotProduct_comm, ← mulVec_transpose, h]

variable {sf ic x e}

theorem stiffForm_nonneg (hm : ∀ g, 0 < measure2 sf ic (nodeRows n x e) g) {D : Matrix (Fin 3) (Fin 3) ℝ}
    (h : PosTensor D) (v : ℕ → ℕ → ℝ) : 0 ≤ stiffForm sf ic x e D v v := by
  rw [stiffForm_apply]
  refine Finset.sum_nonneg fun g _ => mul_nonneg (by linarith [hm g]) ?_
  generalize planeB (gradAt sf (nodeRows n x e) (ic.points g)) *ᵥ localField [0, 1] e v = s
  by_cases hs : s = 0
  · simp [hs]
  · exact (h.2 s hs).le

theorem stiffForm_relative (hm : ∀ g, 0 < measure2 sf ic (nodeRows n x e) g) {D D0 : Matrix (Fin 3) (Fin 3) ℝ} {c : ℝ}
    (h : ∀ v : Fin 3 → ℝ, |v ⬝ᵥ (D *ᵥ v) - v ⬝ᵥ (D0 *ᵥ v)| ≤ c * (v ⬝ᵥ (D0 *ᵥ v))) (v : ℕ → ℕ → ℝ) :
    |stiffForm sf ic x e D v v - stiffForm sf ic x e D0 v v| ≤ c * stiffForm sf ic x e D0 v v := by
  rw [stiffForm_apply, stiffForm_apply, ← Finset.sum_sub_distrib, Finset.mul_sum]
  refine (Finset.abs_sum_le_sum_abs _ _).trans (Finset.sum_le_sum fun g _ => ?_)
  rw [← mul_sub, abs_mul, mul_one, abs_of_pos (hm g)]
  have := mul_le_mul_of_nonneg_left
    (h (planeB (gradAt sf (nodeRows n x e) (ic.points g)) *ᵥ localField [0, 1] e v)) (hm g).le
  linarith

theorem stiffForm_deriv {D : ℝ → Matrix (Fin 3) (Fin 3) ℝ} {D' : Matrix (Fin 3) (Fin 3) ℝ} {y : ℝ}
    (h : EntryDeriv D D' y) (v : ℕ → ℕ → ℝ) :
    HasDerivAt (fun s => stiffForm sf ic x e (D s) v v) (stiffForm sf ic x e D' v v) y := by
  simp only [stiffForm_apply, tensor_form]
  refine HasDerivAt.fun_sum fun g _ => HasDerivAt.const_mul _ ?_
  exact HasDerivAt.fun_sum fun i _ => HasDerivAt.fun_sum fun j _ => (h i j).mul_const _

theorem stiffItem_call (hx : HasCoords x e) (hl : e.length = n) (hm : ∀ g, 0 < measure2 sf ic (nodeRows n x e) g)
    (D : Matrix (Fin 3) (Fin 3) ℝ) :
    latticeKe sf ic x e D = some (stiffItem sf ic x e D) ∧ (stiffItem sf ic x e D).Square ∧
      ElemCall (fun X => planeStiffness sf ic X D 1) [0, 1] x e (stiffItem sf ic x e D).call := by
  obtain ⟨X, hX⟩ := triangle_coords hx (n := n) hl
  have hr := gather_rows hX
  subst hr
  have hreg : Regular sf ic (nodeRows n x e) := by
    intro g h0
    have := hm g
    rw [measure2, h0] at this
    simp at this
  have hcore : planeStiffness sf ic (nodeRows n x e) D 1 = some (stiffMat sf ic x e D) :=
    (planeStiffness_eq_some _ _ _).2 ⟨hreg, rfl⟩
  obtain ⟨p1, p2⟩ := inter_perm (n := n) (k := 2) (e := e) (dl := [0, 1]) hl rfl
  refine ⟨?_, ⟨?_, p1, ?_, ?_⟩, _, _, hX, hcore, rfl⟩
  · unfold latticeKe
    have h2 := elemM_eq_some (k := 2) (dl := [0, 1]) (core := fun X => planeStiffness sf ic X D 1) (x := x) (e := e)
      (Ke := flatM (stiffMat sf ic x e D)) (nte := interTable 2 n [0, 1]) |>.2 ⟨rfl, _, _, hX, hcore, rfl, rfl⟩
    rw [h2]
    rfl
  · simp only [stiffItem]
    rw [interTable_length, hl]
  · rw [show localDofs (stiffItem sf ic x e D).nte (stiffItem sf ic x e D).element =
      localDofs (interTable 2 n [0, 1]) e from rfl, p2]; rfl
  · rw [show localDofs (stiffItem sf ic x e D).nte (stiffItem sf ic x e D).element =
      localDofs (interTable 2 n [0, 1]) e from rfl, p2]; rfl

theorem stiffItem_fits (hx : HasCoords x e) (hl : e.length = n) (hm : ∀ g, 0 < measure2 sf ic (nodeRows n x e) g)
    (D : Matrix (Fin 3) (Fin 3) ℝ) {u : List (Vec ℝ)} (hu : Shaped u (freeTable x.length 2)) :
    (stiffItem sf ic x e D).call.Fits (freeTable x.length 2) u := by
  obtain ⟨a, b⟩ := elem_fits (k := 2) (dl := [0, 1]) rfl (by decide) (by norm_num) (stiffItem_call hx hl hm D).2.2
  exact ⟨fun p hp => ⟨(a p hp).1, (hu.2 _ _).2 (a p hp).1⟩, b⟩

theorem stiffItem_energy (hl : e.length = n) (D : Matrix (Fin 3) (Fin 3) ℝ) (v w : ℕ → ℕ → ℝ) :
    callEnergy (stiffItem sf ic x e D).call v w = stiffForm sf ic x e D v w :=
  matrix_energy (dl := [0, 1]) (k := 2) (stiffMat sf ic x e D) hl rfl v w

theorem latticeTerm_eq {it : ElemData ℝ} {t : List (List ℤ)} {u : List (Vec ℝ)} (h : it.Square)
    (hf : it.call.Fits t u) : latticeTerm u it = some (-callEnergy it.call (valOf u) (valOf u)) := by
  obtain ⟨ue, f, h1, h2, h3⟩ := element_work h hf
  unfold latticeTerm
  simp only [h1, h2, Option.bind_eq_bind, Option.bind_some]
  have : ue.neg = ue.smul (-1) := rfl
  rw [this]
  refine (h3 (-1)).trans ?_
  rw [neg_one_mul]

end

end Pansfem
