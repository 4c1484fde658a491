/-
The energy of a cell as a bilinear form.
-/
import Verif.Lemmas.ProgramCell
import Verif.Props.C116_Semidefinite

namespace Pansfem

open Matrix

variable {n : ℕ} {sf : SF ℝ 2 n} {ic : IC ℝ 2} {x : List (Vec ℝ)} {elements : List (List ℕ)} {pairs : List (ℕ × ℕ)}
  {E V t alpha : ℝ} {D : Matrix (Fin 3) (Fin 3) ℝ}

/-! ### The form -/

theorem cellForm_congr {a a' b b' : List ℕ → Fin ic.N → Fin 3 → ℝ} (ha : ∀ e ∈ elements, ∀ g, a e g = a' e g)
    (hb : ∀ e ∈ elements, ∀ g, b e g = b' e g) :
    cellForm sf ic x elements D t a b = cellForm sf ic x elements D t a' b' := by
  unfold cellForm
  refine congrArg List.sum (List.map_congr_left fun e he => Finset.sum_congr rfl fun g _ => ?_)
  rw [ha e he, hb e he]

theorem cellForm_add_right (a b c : List ℕ → Fin ic.N → Fin 3 → ℝ) :
    cellForm sf ic x elements D t a (b + c) = cellForm sf ic x elements D t a b + cellForm sf ic x elements D t a c := by
  unfold cellForm
  rw [← List.sum_map_add]
  refine congrArg List.sum (List.map_congr_left fun e _ => ?_)
  rw [← Finset.sum_add_distrib]
  refine Finset.sum_congr rfl fun g _ => ?_
  rw [Pi.add_apply, Pi.add_apply, Matrix.mulVec_add, dotProduct_add]
  ring

theorem cellForm_smul_right (s : ℝ) (a b : List ℕ → Fin ic.N → Fin 3 → ℝ) :
    cellForm sf ic x elements D t a (s • b) = s * cellForm sf ic x elements D t a b := by
  unfold cellForm
  rw [list_sum_mul_left]
  refine congrArg List.sum (List.map_congr_left fun e _ => ?_)
  rw [Finset.mul_sum]
  refine Finset.sum_congr rfl fun g _ => ?_
  rw [Pi.smul_apply, Pi.smul_apply, Matrix.mulVec_smul, dotProduct_smul, smul_eq_mul]
  ring

theorem cellForm_comm (hD : Dᵀ = D) (a b : List ℕ → Fin ic.N → Fin 3 → ℝ) :
    cellForm sf ic x elements D t a b = cellForm sf ic x elements D t b a := by
  unfold cellForm
  refine congrArg List.sum (List.map_congr_left fun e _ => Finset.sum_congr rfl fun g _ => ?_)
  rw [Matrix.dotProduct_mulVec, ← Matrix.mulVec_transpose, hD, dotProduct_comm]

theorem cellForm_sub_right (a b c : List ℕ → Fin ic.N → Fin 3 → ℝ) :
    cellForm sf ic x elements D t a (b - c) = cellForm sf ic x elements D t a b - cellForm sf ic x elements D t a c := by
  have : b - c = b + (-1 : ℝ) • c := by rw [neg_one_smul, sub_eq_add_neg]
  rw [this, cellForm_add_right, cellForm_smul_right]
  ring

theorem cellForm_sub_left (hD : Dᵀ = D) (a b c : List ℕ → Fin ic.N → Fin 3 → ℝ) :
    cellForm sf ic x elements D t (a - b) c = cellForm sf ic x elements D t a c - cellForm sf ic x elements D t b c := by
  rw [cellForm_comm hD, cellForm_sub_right, cellForm_comm hD c, cellForm_comm hD c]

theorem planeStrain_definite (h : CellInput sf ic x elements pairs E V t) (hD : planeStrainD E V = some D)
    {e : Fin 3 → ℝ} (he : e ⬝ᵥ (D *ᵥ e) = 0) : e = 0 := by
  obtain ⟨h0, rfl⟩ := planeStrainD_eq_some.1 hD
  have a1 : 0 < 1 - 2 * V := by linarith [h.poisson.2]
  have a2 : 0 < 1 + V := by linarith [h.poisson.1]
  have a3 := h.young
  rw [Matrix.smul_mulVec, dotProduct_smul, form_planeStrainD0, smul_eq_mul] at he
  rcases mul_eq_zero.1 he with he | he
  · exfalso
    revert he
    positivity
  · have h1 := sq_nonneg (e 0 + e 1)
    have h2 := sq_nonneg (e 0 - e 1)
    have h3 := sq_nonneg (e 2)
    have h4 : 0 ≤ 1 / 2 * (1 - 2 * V) * ((e 0 - e 1) ^ 2 + e 2 ^ 2) := by positivity
    have z1 : (e 0 + e 1) ^ 2 = 0 := by linarith
    have z4 : 1 / 2 * (1 - 2 * V) * ((e 0 - e 1) ^ 2 + e 2 ^ 2) = 0 := by linarith
    have z5 : (e 0 - e 1) ^ 2 + e 2 ^ 2 = 0 := (mul_eq_zero.1 z4).resolve_left (by positivity)
    have z2 : (e 0 - e 1) ^ 2 = 0 := by linarith
    have z3 : e 2 ^ 2 = 0 := by linarith
    rw [pow_eq_zero_iff (by norm_num)] at z1 z2 z3
    ext q
    fin_cases q
    · show e 0 = 0; linarith
    · show e 1 = 0; linarith
    · exact z3

theorem cellForm_point_nonneg (h : CellInput sf ic x elements pairs E V t) (hD : planeStrainD E V = some D) {e : List ℕ}
    (he : e ∈ elements) (g : Fin ic.N) (s : Fin 3 → ℝ) :
    0 ≤ measure2 sf ic (nodeRows n x e) g * t * (s ⬝ᵥ (D *ᵥ s)) :=
  mul_nonneg (mul_nonneg (h.positive e he g).le h.thick.le)
    (nonnegForm_planeStrainD h.young.le h.poisson.1 h.poisson.2 hD s)

theorem cellForm_nonneg (h : CellInput sf ic x elements pairs E V t) (hD : planeStrainD E V = some D)
    (a : List ℕ → Fin ic.N → Fin 3 → ℝ) : 0 ≤ cellForm sf ic x elements D t a a := by
  unfold cellForm
  refine List.sum_nonneg fun s hs => ?_
  obtain ⟨e, he, rfl⟩ := List.mem_map.1 hs
  exact Finset.sum_nonneg fun g _ => cellForm_point_nonneg h hD he g _

theorem list_sum_zero_nonneg {α : Type} {l : List α} {f : α → ℝ} (hf : ∀ a ∈ l, 0 ≤ f a) (h : (l.map f).sum = 0) :
    ∀ a ∈ l, f a = 0 := by
  induction l with
  | nil => simp
  | cons b l ih =>
    rw [List.map_cons, List.sum_cons] at h
    have h1 := hf b (List.mem_cons_self ..)
    have h2 : 0 ≤ (l.map f).sum := List.sum_nonneg fun s hs => by
      obtain ⟨a, ha, rfl⟩ := List.mem_map.1 hs
      exact hf a (List.mem_cons_of_mem _ ha)
    intro a ha
    rcases List.mem_cons.1 ha with rfl | ha
    · linarith
    · exact ih (fun a ha => hf a (List.mem_cons_of_mem _ ha)) (by linarith) a ha

/-- A strain field without energy vanishes. -/
theorem cellForm_zero (h : CellInput sf ic x elements pairs E V t) (hD : planeStrainD E V = some D)
    {a : List ℕ → Fin ic.N → Fin 3 → ℝ} (ha : cellForm sf ic x elements D t a a = 0) :
    ∀ e ∈ elements, ∀ g, a e g = 0 := by
  intro e he g
  have h1 := list_sum_zero_nonneg (fun e he => Finset.sum_nonneg fun g _ => cellForm_point_nonneg h hD he g _) ha e he
  have h2 := (Finset.sum_eq_zero_iff_of_nonneg fun g _ => cellForm_point_nonneg h hD he g _).1 h1 g (Finset.mem_univ _)
  exact planeStrain_definite h hD ((mul_eq_zero.1 h2).resolve_left
    (mul_pos (h.positive e he g) h.thick).ne')

theorem cellStrain_congr {v w : ℕ → ℕ → ℝ} {e : List ℕ} (he : e.length = n) (h : ∀ m ∈ e, ∀ j < 2, v m j = w m j)
    (g : Fin ic.N) : cellStrain sf ic x v e g = cellStrain sf ic x w e g := by
  unfold cellStrain
  congr 1
  funext p
  have hp : (p.1 : ℕ) < e.length := by rw [he]; exact p.1.2
  rw [List.getElem?_eq_getElem hp, Option.getD_some]
  exact h _ (List.getElem_mem _) _ p.2.2

theorem cellStrain_add (v w : ℕ → ℕ → ℝ) : cellStrain sf ic x (v + w) = cellStrain sf ic x v + cellStrain sf ic x w := by
  funext e g
  show _ = cellStrain sf ic x v e g + cellStrain sf ic x w e g
  unfold cellStrain
  rw [← planeB_mulVec, ← planeB_mulVec, ← planeB_mulVec, ← Matrix.mulVec_add]
  rfl

theorem cellStrain_smul (s : ℝ) (v : ℕ → ℕ → ℝ) : cellStrain sf ic x (s • v) = s • cellStrain sf ic x v := by
  funext e g
  show _ = s • cellStrain sf ic x v e g
  unfold cellStrain
  rw [← planeB_mulVec, ← planeB_mulVec, ← Matrix.mulVec_smul]
  rfl

/-- A translation has no strain. -/
theorem cellStrain_translation (hc : Complete sf) (a : Fin 2 → ℝ) (e : List ℕ) (g : Fin ic.N) :
    cellStrain sf ic x (fun _ j => if j = 0 then a 0 else a 1) e g = 0 := by
  unfold cellStrain strain2
  have h := sum_gradAt hc (nodeRows n x e) (ic.points g)
  have hs : ∀ (k : Fin 2) (c : ℝ), ∑ i, gradAt sf (nodeRows n x e) (ic.points g) k i * c = 0 := fun k c => by
    rw [← Finset.sum_mul, h, zero_mul]
  funext q
  fin_cases q <;> simp [hs]

theorem fieldOf_add {N : ℕ} (T : List (List ℤ)) (y z : Fin N → ℝ) : fieldOf T (y + z) = fieldOf T y + fieldOf T z := by
  funext m j
  show _ = fieldOf T y m j + fieldOf T z m j
  unfold fieldOf
  split_ifs <;> simp

theorem fieldOf_smul {N : ℕ} (T : List (List ℤ)) (s : ℝ) (y : Fin N → ℝ) : fieldOf T (s • y) = s • fieldOf T y := by
  funext m j
  show _ = s * fieldOf T y m j
  unfold fieldOf
  split_ifs <;> simp

/-! ### The springs -/

theorem springWork_nonneg (ha : 0 ≤ alpha) (elements : List (List ℕ)) (v : ℕ → ℕ → ℝ) :
    0 ≤ springWork alpha elements v v := by
  unfold springWork
  refine List.sum_nonneg fun s hs => ?_
  obtain ⟨e, -, rfl⟩ := List.mem_map.1 hs
  refine List.sum_nonneg fun s hs => ?_
  obtain ⟨m, -, rfl⟩ := List.mem_map.1 hs
  exact mul_nonneg ha (mul_self_nonneg _)

theorem springWork_zero (ha : 0 < alpha) {v : ℕ → ℕ → ℝ} (h : springWork alpha elements v v = 0) :
    ∀ e ∈ elements, ∀ m ∈ e, v m 0 + v m 1 = 0 := by
  intro e he m hm
  have h0 : ∀ m, 0 ≤ alpha * ((v m 0 + v m 1) * (v m 0 + v m 1)) := fun m => mul_nonneg ha.le (mul_self_nonneg _)
  have h1 := list_sum_zero_nonneg (fun e _ => List.sum_nonneg fun s hs => by
    obtain ⟨m, -, rfl⟩ := List.mem_map.1 hs
    exact h0 m) h e he
  have h2 := list_sum_zero_nonneg (fun m _ => h0 m) h1 m hm
  exact mul_self_eq_zero.1 ((mul_eq_zero.1 h2).resolve_left ha.ne')

theorem springWork_kernel {v w : ℕ → ℕ → ℝ} (h : ∀ e ∈ elements, ∀ m ∈ e, v m 0 + v m 1 = 0) :
    springWork alpha elements w v = 0 := by
  unfold springWork
  refine sum_zero' _ _ fun e he => sum_zero' _ _ fun m hm => ?_
  rw [h e he m hm, mul_zero, mul_zero]

/-! ### Solvable singular systems -/

/-- A symmetric system is solvable if the right-hand side is orthogonal to the kernel. -/
theorem symm_solvable {N : ℕ} {M : Matrix (Fin N) (Fin N) ℝ} (hM : ∀ i j, M i j = M j i) {b : Fin N → ℝ}
    (hb : ∀ w, M.mulVec w = 0 → w ⬝ᵥ b = 0) : ∃ z, M.mulVec z = b := by
  by_contra hcon
  have hnot : b ∉ LinearMap.range M.mulVecLin := fun ⟨z, hz⟩ => hcon ⟨z, hz⟩
  obtain ⟨f, hf, hle⟩ := Submodule.exists_le_ker_of_notMem hnot
  let w : Fin N → ℝ := fun i => f (Pi.single i 1)
  have hfw : ∀ v, f v = w ⬝ᵥ v := by
    intro v
    have : v = ∑ i, v i • (Pi.single i 1 : Fin N → ℝ) := by
      funext j
      simp [Pi.single_apply]
    conv_lhs => rw [this]
    rw [map_sum]
    simp only [map_smul, smul_eq_mul, dotProduct, w]
    exact Finset.sum_congr rfl fun i _ => mul_comm _ _
  have hker : M.mulVec w = 0 := by
    have h1 : ∀ z, z ⬝ᵥ M.mulVec w = 0 := by
      intro z
      rw [dot_mulVec_symm hM, dotProduct_comm, dotProduct_comm, ← hfw]
      exact hle ⟨z, rfl⟩
    funext i
    have := h1 (Pi.single i 1)
    simpa using this
  exact hf (by rw [hfw]; exact hb w hker)

end Pansfem
