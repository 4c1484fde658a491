/-
The element matrices of the advection-diffusion programs on a triangle, and their sums over a mesh.
-/
import Verif.Spec.Advection
import Verif.Model.ProgramAdvection
import Verif.Props.C112_Programs
import Verif.Props.C88_WeakForm

namespace Pansfem

open Matrix

section
variable {x : List (Vec ℝ)} {a b c : ℕ} {X : Matrix (Fin 3) (Fin 2) ℝ} {w : Fin 2 → ℝ} {k : ℝ}

/-- The gradients of the hat functions. -/
theorem triangle_grad (h : gather x [a, b, c] 3 2 = some X) (hp : 0 < triArea x a b c) (r : Fin 2 → ℝ) :
    gradAt SF.triangle3 X r = !![(coord x b 1 - coord x c 1) / triArea x a b c,
        (coord x c 1 - coord x a 1) / triArea x a b c, (coord x a 1 - coord x b 1) / triArea x a b c;
      (coord x c 0 - coord x b 0) / triArea x a b c,
        (coord x a 0 - coord x c 0) / triArea x a b c, (coord x b 0 - coord x a 0) / triArea x a b c] := by
  have hdet : (SF.triangle3.dNdr r * X).det = triArea x a b c := by
    rw [Matrix.det_fin_two]
    simp [SF.triangle3, Matrix.mul_apply, Fin.sum_univ_succ, triangle_gather h, triArea]
    ring
  have hu : IsUnit (SF.triangle3.dNdr r * X).det := by rw [hdet]; exact hp.ne'.isUnit
  have hD := hp.ne'
  have key : (SF.triangle3.dNdr r * X) * !![(coord x b 1 - coord x c 1) / triArea x a b c,
        (coord x c 1 - coord x a 1) / triArea x a b c, (coord x a 1 - coord x b 1) / triArea x a b c;
      (coord x c 0 - coord x b 0) / triArea x a b c,
        (coord x a 0 - coord x c 0) / triArea x a b c, (coord x b 0 - coord x a 0) / triArea x a b c] =
      SF.triangle3.dNdr r := by
    ext i j
    fin_cases i <;> fin_cases j <;>
    · simp [SF.triangle3, Matrix.mul_apply, Matrix.vecMul, dotProduct, Fin.sum_univ_succ, triangle_gather h]
      field_simp
      unfold triArea
      ring
  have := congrArg ((SF.triangle3.dNdr r * X)⁻¹ * ·) key
  rw [← Matrix.mul_assoc, Matrix.nonsing_inv_mul _ hu, Matrix.one_mul] at this
  rw [gradAt, this]

theorem triangle_along (h : gather x [a, b, c] 3 2 = some X) (hp : 0 < triArea x a b c) (r : Fin 2 → ℝ)
    (v : ℕ → ℕ → ℝ) : along SF.triangle3 X w r (nodeValues 3 [a, b, c] v) = slope x a b c w fun m => v m 0 := by
  rw [along, triangle_grad h hp]
  simp [Matrix.mulVec, dotProduct, Fin.sum_univ_succ, nodeValues, slope]
  ring

theorem triangle_interp (g : Fin (IC.gauss1Triangle : IC ℝ 2).N) (v : ℕ → ℕ → ℝ) :
    interp ((SF.triangle3 : SF ℝ 2 3).N ((IC.gauss1Triangle : IC ℝ 2).points g)) (nodeValues 3 [a, b, c] v) =
      triMean a b c fun m => v m 0 := by
  have : g = (0 : Fin 1) := Subsingleton.elim (α := Fin 1) _ _
  subst this
  simp [interp, SF.triangle3, IC.gauss1Triangle, Fin.sum_univ_succ, nodeValues, triMean]
  ring

/-- The slopes of the hat functions do not all vanish. -/
theorem slopeSum_pos (hp : 0 < triArea x a b c) (hw : w ≠ 0) : 0 < slopeSum x a b c w := by
  refine div_pos ?_ hp
  by_contra hn
  have h1 := abs_nonneg (w 0 * (coord x b 1 - coord x c 1) + w 1 * (coord x c 0 - coord x b 0))
  have h2 := abs_nonneg (w 0 * (coord x c 1 - coord x a 1) + w 1 * (coord x a 0 - coord x c 0))
  have h3 := abs_nonneg (w 0 * (coord x a 1 - coord x b 1) + w 1 * (coord x b 0 - coord x a 0))
  have z2 := abs_eq_zero.1 (le_antisymm (by linarith) h2)
  have z3 := abs_eq_zero.1 (le_antisymm (by linarith) h3)
  apply hw
  have e0 : w 0 * triArea x a b c = 0 := by unfold triArea; linear_combination (coord x b 0 - coord x a 0) * z2 + (coord x c 0 - coord x a 0) * z3
  have e1 : w 1 * triArea x a b c = 0 := by unfold triArea; linear_combination (coord x b 1 - coord x a 1) * z2 + (coord x c 1 - coord x a 1) * z3
  ext j
  fin_cases j
  · exact (mul_eq_zero.1 e0).resolve_right hp.ne'
  · exact (mul_eq_zero.1 e1).resolve_right hp.ne'

theorem norm_sq_pos (hw : w ≠ 0) : 0 < w 0 ^ 2 + w 1 ^ 2 := by
  by_contra hn
  apply hw
  have h0 : w 0 = 0 := by nlinarith [sq_nonneg (w 0), sq_nonneg (w 1)]
  have h1 : w 1 = 0 := by nlinarith [sq_nonneg (w 0), sq_nonneg (w 1)]
  ext j
  fin_cases j
  · exact h0
  · exact h1

theorem triangle_abs_sum (h : gather x [a, b, c] 3 2 = some X) (hp : 0 < triArea x a b c) (r : Fin 2 → ℝ) :
    ∑ i, |((gradAt SF.triangle3 X r)ᵀ *ᵥ w) i| = slopeSum x a b c w := by
  have e : ∀ p q : ℝ, |p / triArea x a b c * q| = |p * q| / triArea x a b c := fun p q => by
    rw [div_mul_eq_mul_div, abs_div, abs_of_pos hp]
  have f : ∀ p q r s : ℝ, |p / triArea x a b c * r + q / triArea x a b c * s| = |r * p + s * q| / triArea x a b c :=
    fun p q r s => by
      rw [← abs_of_pos hp, ← abs_div, abs_of_pos hp]
      congr 1
      ring
  rw [triangle_grad h hp]
  simp only [Fin.sum_univ_three, Matrix.mulVec, dotProduct, Fin.sum_univ_two, Matrix.transpose_apply]
  simp only [Matrix.of_apply, Matrix.cons_val', Matrix.cons_val_zero, Matrix.cons_val_one, Matrix.cons_val, f]
  unfold slopeSum
  ring

/-- The parameter computed by the routines. -/
theorem triangle_tau (h : gather x [a, b, c] 3 2 = some X) (hp : 0 < triArea x a b c) (hw : w ≠ 0) (hk : 0 ≤ k)
    (r : Fin 2 → ℝ) : advTau (gradAt SF.triangle3 X r) w k = some (supgTime x a b c w k) := by
  have hS := slopeSum_pos (x := x) hp hw
  have hn : w ⬝ᵥ w = w 0 ^ 2 + w 1 ^ 2 := by simp [dotProduct, Fin.sum_univ_two, sq]
  have hw2 := norm_sq_pos hw
  obtain ⟨n, hnn⟩ : ∃ n, n = √(w ⬝ᵥ w) := ⟨_, rfl⟩
  have hn0 : 0 < n := by rw [hnn, hn]; exact Real.sqrt_pos.2 hw2
  have hn2 : n * n = w 0 ^ 2 + w 1 ^ 2 := by rw [hnn, hn]; exact Real.mul_self_sqrt hw2.le
  have hsum : ∑ i, |((gradAt SF.triangle3 X r)ᵀ *ᵥ w) i| / n = slopeSum x a b c w / n := by
    simp only [div_eq_mul_inv]
    rw [← Finset.sum_mul, triangle_abs_sum h hp]
  have h1 : advScale (gradAt SF.triangle3 X r) w k =
      some (2 / (slopeSum x a b c w / n), div? (1 / 2 * n * (2 / (slopeSum x a b c w / n))) k) := by
    simp only [advScale, Option.bind_eq_bind, Option.bind_eq_some_iff, Option.pure_def, Option.some.injEq, ← hnn]
    refine ⟨_, allSome_eq_some.2 fun i => div?_eq_some.2 ⟨hn0.ne', rfl⟩, _,
      div?_eq_some.2 ⟨by rw [hsum]; positivity, rfl⟩, by rw [hsum]⟩
  rw [advTau, h1]
  simp only [Option.bind_eq_bind, Option.bind_some, Option.pure_def, ← hnn]
  rw [div?_eq_some.2 ⟨hn0.ne', rfl⟩, Option.bind_some]
  have e1 : 1 / 2 * (2 / (slopeSum x a b c w / n)) / n = 1 / slopeSum x a b c w := by field_simp
  have e2 : 1 / 2 * n * (2 / (slopeSum x a b c w / n)) = (w 0 ^ 2 + w 1 ^ 2) / slopeSum x a b c w := by
    rw [← hn2]; field_simp
  rw [e1, e2]
  congr 1
  unfold supgTime
  rcases hk.eq_or_lt with rfl | hk
  · rw [if_neg (by simpa using hw2)]
    simp [div?, advLimit]
  · rw [div?_eq_some.2 ⟨hk.ne', rfl⟩, advLimit]
    have e3 : (w 0 ^ 2 + w 1 ^ 2) / slopeSum x a b c w / k ≤ 3 ↔ w 0 ^ 2 + w 1 ^ 2 ≤ 3 * k * slopeSum x a b c w := by
      rw [div_div, div_le_iff₀ (mul_pos hS hk)]
      constructor <;> intro h <;> linarith
    by_cases hc : w 0 ^ 2 + w 1 ^ 2 ≤ 3 * k * slopeSum x a b c w
    · rw [if_pos (e3.2 hc), if_pos hc]
      field_simp
    · rw [if_neg (mt e3.1 hc), if_neg hc, mul_one]

/-- Without a velocity the routines divide zero by zero. -/
theorem still_tau (dN : Matrix (Fin 2) (Fin 3) ℝ) : advTau dN (0 : Fin 2 → ℝ) k = none := by
  simp only [advTau, Option.bind_eq_bind]
  cases h : advScale dN (0 : Fin 2 → ℝ) k with
  | none => rfl
  | some s =>
    simp [div?]

theorem supgTime_nonneg (hp : 0 < triArea x a b c) (hw : w ≠ 0) (hk : 0 ≤ k) : 0 ≤ supgTime x a b c w k := by
  have := slopeSum_pos (x := x) hp hw
  have := norm_sq_pos hw
  unfold supgTime
  split_ifs <;> positivity

/-- The rule has one point. -/
theorem gauss1_sum : ∃ g0 : Fin (IC.gauss1Triangle : IC ℝ 2).N,
    ∀ f : Fin (IC.gauss1Triangle : IC ℝ 2).N → ℝ, ∑ g, f g = f g0 :=
  ⟨(0 : Fin 1), fun f => Fin.sum_univ_one (fun i : Fin 1 => f i)⟩

/-- The element matrix of the two programs as a weak form. -/
theorem transportCore_spec (h : gather x [a, b, c] 3 2 = some X) (hp : 0 < triArea x a b c) (hw : w ≠ 0)
    (hk : 0 ≤ k) : ∃ A, transportCore w k X = some A ∧ ∀ v u : ℕ → ℕ → ℝ,
      nodeValues 3 [a, b, c] v ⬝ᵥ (A *ᵥ nodeValues 3 [a, b, c] u) =
        transportForm x w k (fun m => v m 0) (fun m => u m 0) [a, b, c] := by
  have hreg := triangle_regular h hp
  obtain ⟨A, hA⟩ : ∃ A, advection SF.triangle3 IC.gauss1Triangle X w = some A := ⟨_, loop2_some.2 ⟨hreg, rfl⟩⟩
  obtain ⟨B, hB⟩ : ∃ B, rdStiffness SF.triangle3 IC.gauss1Triangle X k = some B := ⟨_, loop2_some.2 ⟨hreg, rfl⟩⟩
  obtain ⟨C, hC⟩ : ∃ C, advectionSUPG SF.triangle3 IC.gauss1Triangle X w k = some C :=
    loop2_defined hreg fun g => by
      simp only [triangle_tau h hp hw hk, Option.bind_eq_bind, Option.bind_some, Option.pure_def]
      exact ⟨_, rfl⟩
  refine ⟨A + B + C, by simp [transportCore, hA, hB, hC], fun v u => ?_⟩
  have eA := C88_advection hA (nodeValues 3 [a, b, c] v) (nodeValues 3 [a, b, c] u)
  have e1 : ∀ (z : Fin 2 → ℝ) (r : Fin 2 → ℝ) (u : ℕ → ℕ → ℝ),
      ∑ j, z j * interp (gradAt SF.triangle3 X r j) (nodeValues 3 [a, b, c] u) =
        slope x a b c z fun m => u m 0 := fun z r u => by
    rw [← triangle_along h hp r u]
    rfl
  have e2 : ∀ (r : Fin 2 → ℝ) (u : ℕ → ℕ → ℝ),
      (gradAt SF.triangle3 X r *ᵥ nodeValues 3 [a, b, c] u) 0 = slope x a b c ![1, 0] (fun m => u m 0) ∧
      (gradAt SF.triangle3 X r *ᵥ nodeValues 3 [a, b, c] u) 1 = slope x a b c ![0, 1] (fun m => u m 0) := fun r u => by
    rw [← triangle_along h hp r u, ← triangle_along h hp r u]
    simp [along, dotProduct, Fin.sum_univ_two]
  obtain ⟨g0, hone⟩ := gauss1_sum
  rw [Matrix.add_mulVec, Matrix.add_mulVec, dotProduct_add, dotProduct_add, eA, hone]
  rw [triangle_measure h, triangle_interp, e1]
  have eB : nodeValues 3 [a, b, c] v ⬝ᵥ (B *ᵥ nodeValues 3 [a, b, c] u) = triArea x a b c / 2 * (k *
      (slope x a b c ![1, 0] (fun m => v m 0) * slope x a b c ![1, 0] (fun m => u m 0) +
       slope x a b c ![0, 1] (fun m => v m 0) * slope x a b c ![0, 1] (fun m => u m 0))) := by
    rw [rdStiffness, loop2_some] at hB
    rw [hB.2, dot_smul_sum_mulVec, hone, triangle_measure h, smul_mulVec, dotProduct_smul, ← mulVec_mulVec,
      dotProduct_mulVec, vecMul_transpose, smul_eq_mul]
    simp only [dotProduct, Fin.sum_univ_two, e2]
  have eC : nodeValues 3 [a, b, c] v ⬝ᵥ (C *ᵥ nodeValues 3 [a, b, c] u) = triArea x a b c / 2 *
      (supgTime x a b c w k * (slope x a b c w (fun m => v m 0) * slope x a b c w (fun m => u m 0))) := by
    obtain ⟨tau, ht, rfl⟩ := exists_advTau hC
    rw [dot_smul_sum_mulVec, hone, triangle_measure h]
    have := ht g0
    rw [triangle_tau h hp hw hk] at this
    rw [← Option.some.inj this, smul_mulVec, dotProduct_smul, vecMulVec_mulVec, mulVec_transpose, vecMul_dot_along,
      dotProduct_smul, dotProduct_comm, vecMul_dot_along, triangle_along h hp, triangle_along h hp]
    simp only [MulOpposite.smul_eq_mul_unop, MulOpposite.unop_op, smul_eq_mul]
  rw [eB, eC]
  simp only [transportForm]
  ring

/-- The mass matrix of the time dependent program as a weak form. -/
theorem transportMass_spec (h : gather x [a, b, c] 3 2 = some X) (hp : 0 < triArea x a b c) (hw : w ≠ 0)
    (hk : 0 ≤ k) : ∃ A, transportMass w k X = some A ∧ ∀ v u : ℕ → ℕ → ℝ,
      nodeValues 3 [a, b, c] v ⬝ᵥ (A *ᵥ nodeValues 3 [a, b, c] u) =
        transportMassForm x w k (fun m => v m 0) (fun m => u m 0) [a, b, c] := by
  have hreg := triangle_regular h hp
  obtain ⟨A, hA⟩ : ∃ A, advectionMass SF.triangle3 IC.gauss1Triangle X = some A := ⟨_, loop2J_eq_some.2 rfl⟩
  obtain ⟨C, hC⟩ : ∃ C, massSUPG SF.triangle3 IC.gauss1Triangle X w k = some C :=
    loop2_defined hreg fun g => by
      simp only [triangle_tau h hp hw hk, Option.bind_eq_bind, Option.bind_some, Option.pure_def]
      exact ⟨_, rfl⟩
  refine ⟨A + C, by simp [transportMass, hA, hC], fun v u => ?_⟩
  obtain ⟨g0, hone⟩ := gauss1_sum
  have eA := C88_advectionMass hA (nodeValues 3 [a, b, c] v) (nodeValues 3 [a, b, c] u)
  rw [Matrix.add_mulVec, dotProduct_add, eA, hone, triangle_measure h, triangle_interp, triangle_interp]
  have eC : nodeValues 3 [a, b, c] v ⬝ᵥ (C *ᵥ nodeValues 3 [a, b, c] u) = triArea x a b c / 2 *
      (supgTime x a b c w k * (slope x a b c w (fun m => v m 0) * triMean a b c (fun m => u m 0))) := by
    obtain ⟨tau, ht, rfl⟩ := exists_advTau hC
    rw [dot_smul_sum_mulVec, hone, triangle_measure h]
    have := ht g0
    rw [triangle_tau h hp hw hk] at this
    rw [← Option.some.inj this, smul_mulVec, dotProduct_smul, vecMulVec_mulVec, mulVec_transpose,
      dotProduct_smul, dotProduct_comm _ (w ᵥ* _), vecMul_dot_along, triangle_along h hp, dotProduct_comm _ (nodeValues _ _ _),
      ← interp_eq, triangle_interp]
    simp only [MulOpposite.smul_eq_mul_unop, MulOpposite.unop_op, smul_eq_mul]
  rw [eC]
  simp only [transportMassForm]
  ring

/-- Without a velocity neither matrix is defined. -/
theorem transport_still : transportCore (0 : Fin 2 → ℝ) k X = none := by
  cases hC : transportCore (0 : Fin 2 → ℝ) k X with
  | none => rfl
  | some K =>
    exfalso
    simp only [transportCore, Option.bind_eq_bind, Option.bind_eq_some_iff] at hC
    obtain ⟨-, -, -, -, C, hC, -⟩ := hC
    obtain ⟨tau, ht, -⟩ := exists_advTau hC
    have := ht gauss1_sum.choose
    rw [still_tau] at this
    cases this

end

/-! ### Sums over a mesh -/

section
variable {x : List (Vec ℝ)} {w : Fin 2 → ℝ} {k : ℝ} {v : ℕ → ℝ}

theorem sideEnergy_swap (s : ℕ × ℕ) : sideEnergy x w v s.swap = - sideEnergy x w v s := by
  simp only [sideEnergy, flux, Prod.fst_swap, Prod.snd_swap]
  ring

/-- The advective part of a triangle is a sum over its sides. -/
theorem advection_sides {a b c : ℕ} (hp : triArea x a b c ≠ 0) :
    triArea x a b c / 2 * (triMean a b c v * slope x a b c w v) =
      ((triSides [a, b, c]).map (sideEnergy x w v)).sum := by
  simp only [triSides, List.map_cons, List.map_nil, List.sum_cons, List.sum_nil, sideEnergy, flux, triMean, slope]
  field_simp
  ring

theorem sides_sum {elements : List (List ℕ)} {boundary : List (ℕ × ℕ)} (h : Conforming elements boundary) :
    ((elements.flatMap triSides).map (sideEnergy x w v)).sum = (boundary.map (sideEnergy x w v)).sum := by
  obtain ⟨inner, hi⟩ := h
  rw [(hi.map _).sum_eq, List.map_append, List.sum_append, List.map_append, List.sum_append, List.map_map]
  have : (inner.map (sideEnergy x w v ∘ Prod.swap)).sum = -(inner.map (sideEnergy x w v)).sum := by
    rw [List.sum_neg, List.map_map]
    exact congrArg List.sum (List.map_congr_left fun s _ => sideEnergy_swap s)
  rw [this]
  ring

end

end Pansfem
