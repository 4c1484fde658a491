/-
C34: the kernel of the plane stress stiffness of a quadrilateral with four points.
-/
import Verif.Props.C34_QuadKernel

open Matrix

namespace Pansfem

/-- **C34**: a plane stress element without energy has no strain at its points. -/
theorem C34_stress_zero_energy {n : ℕ} {sf : SF ℝ 2 n} {ic : IC ℝ 2} {X : Matrix (Fin n) (Fin 2) ℝ} {E V t : ℝ}
    (hm : ∀ g, 0 < measure2 sf ic X g) (ht : 0 < t) (hE : 0 < E) (h1 : -1 < V) (h2 : V < 1)
    {Ke : Matrix (Fin n × Fin 2) (Fin n × Fin 2) ℝ} (h : planeStressStiffness sf ic X E V t = some Ke)
    {u : Fin n × Fin 2 → ℝ} (hu : u ⬝ᵥ (Ke *ᵥ u) = 0) (g : Fin ic.N) : strain2 (gradAt sf X (ic.points g)) u = 0 := by
  obtain ⟨D, hD, h⟩ := planeStressStiffness_eq_some.1 h
  obtain ⟨hV, hDe⟩ := planeStressD_eq_some.1 hD
  obtain ⟨hr, rfl⟩ := (planeStiffness_eq_some sf ic X).1 h
  rw [dot_sum_congr_transform] at hu
  have h0 := (Finset.sum_eq_zero_iff_of_nonneg fun g _ => mul_nonneg (mul_nonneg (hm g).le ht.le)
    (nonnegForm_planeStressD hE.le h1 h2 hD _)).1 hu g (Finset.mem_univ g)
  have h3 := (mul_eq_zero.1 h0).resolve_left (mul_pos (hm g) ht).ne'
  rw [hDe, Matrix.smul_mulVec, dotProduct_smul, form_planeStressD0, smul_eq_mul] at h3
  have a1 : 0 < 1 - V := by linarith
  have a2 : 0 < 1 + V := by linarith
  have h4 := (mul_eq_zero.1 h3).resolve_left (div_pos hE (mul_pos a1 a2)).ne'
  rw [← planeB_mulVec]
  generalize planeB (gradAt sf X (ic.points g)) *ᵥ u = e at h4 ⊢
  have b1 : 1 / 2 * (1 + V) * (e 0 + e 1) ^ 2 = 0 ∧ 1 / 2 * (1 - V) * ((e 0 - e 1) ^ 2 + e 2 ^ 2) = 0 :=
    (add_eq_zero_iff_of_nonneg (by positivity) (by positivity)).1 h4
  have b2 := (mul_eq_zero.1 b1.1).resolve_left (by positivity)
  have b3 := (mul_eq_zero.1 b1.2).resolve_left (by positivity)
  have c1 : e 0 + e 1 = 0 := pow_eq_zero_iff (two_ne_zero) |>.1 b2
  obtain ⟨c2, c3⟩ := (add_eq_zero_iff_of_nonneg (sq_nonneg _) (sq_nonneg _)).1 b3
  have c2 : e 0 - e 1 = 0 := pow_eq_zero_iff (two_ne_zero) |>.1 c2
  have c3 : e 2 = 0 := pow_eq_zero_iff (two_ne_zero) |>.1 c3
  funext k
  match k with
  | 0 => show e 0 = 0; linarith
  | 1 => show e 1 = 0; linarith
  | 2 => exact c3

/-- **C34**: the plane stress stiffness of a quadrilateral with four points kills exactly the rigid motions. -/
theorem C34_quad_stress {X : Matrix (Fin 4) (Fin 2) ℝ} {E V t : ℝ}
    (hX : ∀ g : Fin IC.gauss4Square.N, 0 < (SF.square4.dNdr (IC.gauss4Square.points g) * X).det) (ht : 0 < t)
    (hE : 0 < E) (h1 : -1 < V) (h2 : V < 1) {Ke : Matrix (Fin 4 × Fin 2) (Fin 4 × Fin 2) ℝ}
    (h : planeStressStiffness SF.square4 IC.gauss4Square X E V t = some Ke) (u : Fin 4 × Fin 2 → ℝ) :
    Ke *ᵥ u = 0 ↔ ∃ a w, u = rigid2 X a w := by
  constructor
  · intro hu
    refine quad4_rigid hX fun g => C34_stress_zero_energy (fun g => ?_) ht hE h1 h2 h (u := u)
      (by rw [hu, dotProduct_zero]) g
    rw [measure2, gauss4_weights, gauss4_weights, mul_one, mul_one]
    exact hX g
  · rintro ⟨a, w, rfl⟩
    exact C33_planeStress complete_square4 h a w

/-- A quadrilateral that is no parallelogram, with a Poisson ratio that plane strain does not admit. -/
example : ∃ Ke, planeStressStiffness SF.square4 IC.gauss4Square !![0, 0; 2, 0; 3, 4; 0, 1] 1 (3 / 4) 1 = some Ke ∧
    ∀ u, Ke *ᵥ u = 0 ↔ ∃ a w, u = rigid2 !![0, 0; 2, 0; 3, 4; 0, 1] a w := by
  have hX : ∀ g : Fin IC.gauss4Square.N,
      0 < (SF.square4.dNdr (IC.gauss4Square.points g) * !![(0 : ℝ), 0; 2, 0; 3, 4; 0, 1]).det := by
    intro g
    have h0 := abs_lt.1 (gauss4_coord g 0).2
    have h1 := abs_lt.1 (gauss4_coord g 1).2
    rw [det_fin_two]
    simp [SF.square4, Matrix.mul_apply, Fin.sum_univ_succ]
    nlinarith
  obtain ⟨Ke, h⟩ := Option.isSome_iff_exists.1 ((C32_planeStress_defined (E := (1 : ℝ)) (V := 3 / 4) (t := 1)).2
    ⟨by norm_num, fun g => (hX g).ne'⟩)
  exact ⟨Ke, h, C34_quad_stress hX (by norm_num) (by norm_num) (by norm_num) (by norm_num) h⟩

end Pansfem
