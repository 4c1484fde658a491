/-
The shell element of the shell program in terms of its nodes.
-/
import Verif.Model.ProgramShell
import Verif.Spec.Shell
import Verif.Lemmas.Beam

namespace Pansfem

open Matrix

theorem normal?_defined {v : Fin 3 → ℝ} (h : v ⬝ᵥ v ≠ 0) : ∃ w, normal? v = some w := by
  have hp : 0 < v ⬝ᵥ v := lt_of_le_of_ne (by rw [dot3]; nlinarith [sq_nonneg (v 0), sq_nonneg (v 1), sq_nonneg (v 2)]) h.symm
  exact ⟨_, if_neg (Real.sqrt_pos.2 hp).ne'⟩

theorem normal_up {c : ℝ} (h : 0 < c) : normal? ![0, 0, c] = some ![0, 0, 1] := by
  have : (![0, 0, c] : Fin 3 → ℝ) ⬝ᵥ ![0, 0, c] = c ^ 2 := by simp [dot3]; ring
  simp only [normal?, this, Real.sqrt_sq h.le, h.ne', if_false]
  congr 1
  funext k
  fin_cases k <;> simp [h.ne']

theorem centre_sum : ∃ g0 : Fin (IC.gauss1Square : IC ℝ 2).N, (IC.gauss1Square : IC ℝ 2).points g0 = ![0, 0] ∧
    (IC.gauss1Square : IC ℝ 2).weights g0 = ![2, 2] ∧ (∀ g, g = g0) ∧
    ∀ f : Fin (IC.gauss1Square : IC ℝ 2).N → ℝ, ∑ g, f g = f g0 :=
  ⟨(0 : Fin 1), rfl, rfl, fun g => Subsingleton.elim (α := Fin 1) _ _, fun f => Fin.sum_univ_one (fun i : Fin 1 => f i)⟩

/-- Sums over the two points of the thickness of expressions of degree two. -/
theorem layer_sum (c c1 c2 : ℝ) : ∑ h : Fin (IC.gauss2Line : IC ℝ 1).N, (IC.gauss2Line : IC ℝ 1).weights h 0 *
    (c + c1 * (IC.gauss2Line : IC ℝ 1).points h 0 + c2 * (IC.gauss2Line : IC ℝ 1).points h 0 ^ 2) = 2 * c + 2 / 3 * c2 := by
  have hs : (√3 : ℝ) ^ 2 = 3 := Real.sq_sqrt (by norm_num)
  have : ∀ f : Fin (IC.gauss2Line : IC ℝ 1).N → ℝ, ∑ g, f g = f (0 : Fin 2) + f (1 : Fin 2) :=
    fun f => Fin.sum_univ_two (fun i : Fin 2 => f i)
  rw [this]
  have p0 : (IC.gauss2Line : IC ℝ 1).points (0 : Fin 2) = ![-1 / √3] := rfl
  have p1 : (IC.gauss2Line : IC ℝ 1).points (1 : Fin 2) = ![1 / √3] := rfl
  have w0 : (IC.gauss2Line : IC ℝ 1).weights (0 : Fin 2) = ![1] := rfl
  have w1 : (IC.gauss2Line : IC ℝ 1).weights (1 : Fin 2) = ![1] := rfl
  simp only [p0, p1, w0, w1, Matrix.cons_val_zero]
  have hi : (1 / √3 : ℝ) ^ 2 = 1 / 3 := by rw [div_pow, hs]; norm_num
  have hn : (-1 / √3 : ℝ) = - (1 / √3) := by ring
  rw [hn]
  generalize (1 / √3 : ℝ) = s at hi
  linear_combination (2 * c2) * hi

/-- A flat convex quadrilateral, as matrix of coordinates. -/
structure Flat (X : Matrix (Fin 4) (Fin 3) ℝ) : Prop where
  level : ∀ i, X i 2 = X 0 2
  t0 : 0 < turn (X 3 0, X 3 1) (X 0 0, X 0 1) (X 1 0, X 1 1)
  t1 : 0 < turn (X 0 0, X 0 1) (X 1 0, X 1 1) (X 2 0, X 2 1)
  t2 : 0 < turn (X 1 0, X 1 1) (X 2 0, X 2 1) (X 3 0, X 3 1)
  t3 : 0 < turn (X 2 0, X 2 1) (X 3 0, X 3 1) (X 0 0, X 0 1)

variable {X : Matrix (Fin 4) (Fin 3) ℝ} {E V t : ℝ}

/-- Its area. -/
noncomputable def flatArea (X : Matrix (Fin 4) (Fin 3) ℝ) : ℝ :=
  ((X 2 0 - X 0 0) * (X 3 1 - X 1 1) - (X 3 0 - X 1 0) * (X 2 1 - X 0 1)) / 2

theorem Flat.area (h : Flat X) : 0 < flatArea X := by
  have := h.t0
  have := h.t2
  unfold turn at *
  unfold flatArea
  nlinarith

/-- The first side. -/
theorem Flat.side (h : Flat X) : 0 < (X 1 0 - X 0 0) ^ 2 + (X 1 1 - X 0 1) ^ 2 := by
  have h1 := h.t1
  unfold turn at h1
  rcases eq_or_ne (X 1 0 - X 0 0) 0 with a | a
  · rcases eq_or_ne (X 1 1 - X 0 1) 0 with b | b
    · simp only at h1
      rw [a, b] at h1
      simp at h1
    · positivity
  · positivity

theorem flat_normal (h : Flat X) (i : Fin 4) : ∃ p c : _, (SF.square4 : SF ℝ 2 4).points[(i : ℕ)]? = some p ∧ 0 < c ∧
    cross3 ((SF.square4.dNdr p * X) 0) ((SF.square4.dNdr p * X) 1) = ![0, 0, c] := by
  have l1 := h.level 1
  have l2 := h.level 2
  have l3 := h.level 3
  have key : ∀ (p : Fin 2 → ℝ) (c : ℝ), 0 < c → c = (SF.square4.dNdr p * X) 0 0 * (SF.square4.dNdr p * X) 1 1 -
      (SF.square4.dNdr p * X) 0 1 * (SF.square4.dNdr p * X) 1 0 → 
      cross3 ((SF.square4.dNdr p * X) 0) ((SF.square4.dNdr p * X) 1) = ![0, 0, c] := by
    intro p c _ hc
    have z : ∀ k, (SF.square4.dNdr p * X) k 2 = 0 := by
      intro k
      rw [Matrix.mul_apply, Fin.sum_univ_four, l1, l2, l3]
      fin_cases k <;> simp [SF.square4] <;> ring
    funext k
    fin_cases k
    · simp [cross3, z]
    · simp [cross3, z]
    · simp [cross3, hc]
  have h0 := h.t0
  have h1 := h.t1
  have h2 := h.t2
  have h3 := h.t3
  unfold turn at h0 h1 h2 h3
  match i with
  | 0 =>
    refine ⟨![-1, -1], _, rfl, ?_, key _ (((X 1 0 - X 0 0) * (X 3 1 - X 0 1) - (X 1 1 - X 0 1) * (X 3 0 - X 0 0)) / 4) ?_ ?_⟩
    · simp only at h0; linarith
    · simp only at h0; linarith
    · simp [SF.square4, Matrix.mul_apply, Fin.sum_univ_four]; ring
  | 1 =>
    refine ⟨![1, -1], _, rfl, ?_, key _ (((X 1 0 - X 0 0) * (X 2 1 - X 1 1) - (X 1 1 - X 0 1) * (X 2 0 - X 1 0)) / 4) ?_ ?_⟩
    · simp only at h1; linarith
    · simp only at h1; linarith
    · simp [SF.square4, Matrix.mul_apply, Fin.sum_univ_four]; ring
  | 2 =>
    refine ⟨![1, 1], _, rfl, ?_, key _ (((X 2 0 - X 3 0) * (X 2 1 - X 1 1) - (X 2 1 - X 3 1) * (X 2 0 - X 1 0)) / 4) ?_ ?_⟩
    · simp only at h2; linarith
    · simp only at h2; linarith
    · simp [SF.square4, Matrix.mul_apply, Fin.sum_univ_four]; ring
  | 3 =>
    refine ⟨![-1, 1], _, rfl, ?_, key _ (((X 2 0 - X 3 0) * (X 3 1 - X 0 1) - (X 2 1 - X 3 1) * (X 3 0 - X 0 0)) / 4) ?_ ?_⟩
    · simp only at h3; linarith
    · simp only at h3; linarith
    · simp [SF.square4, Matrix.mul_apply, Fin.sum_univ_four]; ring

/-- The directions of a flat element. -/
theorem flat_frame (h : Flat X) : ∃ v1 v2 : Fin 3 → ℝ,
    (∀ i, shellFrame SF.square4 X (X 1 - X 0) i = some (v1, v2, ![0, 0, 1])) ∧
    normal? (cross3 (X 1 - X 0) ![0, 0, 1]) = some v1 ∧ normal? (cross3 ![0, 0, 1] v1) = some v2 ∧
    v1 2 = 0 ∧ v1 0 ^ 2 + v1 1 ^ 2 = 1 ∧ v2 = ![-v1 1, v1 0, 0] := by
  obtain ⟨v1, hv1⟩ : ∃ v1, normal? (cross3 (X 1 - X 0) ![0, 0, 1]) = some v1 := by
    refine normal?_defined ?_
    have := h.side
    rw [dot3]
    simp
    nlinarith
  obtain ⟨u1, c, -, e⟩ := normal?_eq_some hv1
  have z : v1 2 = 0 := by rw [e]; simp
  rw [dot3, z] at u1
  have hc : cross3 ![0, 0, 1] v1 = ![-v1 1, v1 0, 0] := by
    funext k
    fin_cases k <;> simp [cross3]
  have hv2 : normal? (cross3 ![0, 0, 1] v1) = some ![-v1 1, v1 0, 0] := by
    rw [hc]
    refine normal?_unit ?_
    rw [dot3]
    simp
    linarith
  refine ⟨v1, _, fun i => ?_, hv1, hv2, z, by linarith, rfl⟩
  obtain ⟨p, c, hp, hc, hcr⟩ := flat_normal h i
  simp only [shellFrame, hp, Option.bind_eq_bind, Option.bind_some, hcr, normal_up hc, hv1, hv2, Option.pure_def]

theorem shellJ_flat (h : Flat X) (t z : ℝ) : shellJ SF.square4 X (Matrix.of fun _ => ![0, 0, 1]) t ![0, 0] z =
    Matrix.of ![![(X 1 0 + X 2 0 - X 0 0 - X 3 0) / 4, (X 1 1 + X 2 1 - X 0 1 - X 3 1) / 4, 0],
      ![(X 2 0 + X 3 0 - X 0 0 - X 1 0) / 4, (X 2 1 + X 3 1 - X 0 1 - X 1 1) / 4, 0], ![0, 0, t / 2]] := by
  have l1 := h.level 1
  have l2 := h.level 2
  have l3 := h.level 3
  ext i j
  fin_cases i <;> fin_cases j <;>
    simp [shellJ, SF.square4, Matrix.mul_apply, Fin.sum_univ_four, l1, l2, l3] <;> ring

theorem shellJ_det (h : Flat X) (t z : ℝ) :
    (shellJ SF.square4 X (Matrix.of fun _ => ![0, 0, 1]) t ![0, 0] z).det = flatArea X * t / 8 := by
  rw [shellJ_flat h, Matrix.det_fin_three, flatArea]
  simp
  ring

theorem shellJ_inv (h : Flat X) (ht : t ≠ 0) (z : ℝ) :
    (shellJ SF.square4 X (Matrix.of fun _ => ![0, 0, 1]) t ![0, 0] z)⁻¹ =
    Matrix.of ![![(X 2 1 + X 3 1 - X 0 1 - X 1 1) / flatArea X, -(X 1 1 + X 2 1 - X 0 1 - X 3 1) / flatArea X, 0],
      ![-(X 2 0 + X 3 0 - X 0 0 - X 1 0) / flatArea X, (X 1 0 + X 2 0 - X 0 0 - X 3 0) / flatArea X, 0],
      ![0, 0, 2 / t]] := by
  refine Matrix.inv_eq_left_inv ?_
  have ha := h.area.ne'
  rw [shellJ_flat h]
  ext i j
  fin_cases i <;> fin_cases j <;>
    simp [Matrix.mul_apply, Fin.sum_univ_three] <;> (try field_simp) <;> (try unfold flatArea) <;> first | assumption | ring

theorem shellJ_cross (h : Flat X) (t z : ℝ) :
    cross3 (shellJ SF.square4 X (Matrix.of fun _ => ![0, 0, 1]) t ![0, 0] z 0)
      (shellJ SF.square4 X (Matrix.of fun _ => ![0, 0, 1]) t ![0, 0] z 1) = ![0, 0, flatArea X / 4] := by
  rw [shellJ_flat h]
  funext k
  fin_cases k <;> simp [cross3, flatArea]
  ring

/-- The routine is defined on flat elements. -/
theorem shellCore_defined (h : Flat X) (ht : t ≠ 0) (hV : 1 - V * V ≠ 0) : ∃ A, shellCore E V t X = some A := by
  obtain ⟨v1, v2, hf, f1, f2, -, -, -⟩ := flat_frame h
  have hl : shellL X = some (X 1 - X 0) := rfl
  have hfr : allSome (shellFrame SF.square4 X (X 1 - X 0)) = some fun _ => (v1, v2, ![0, 0, 1]) :=
    allSome_eq_some.2 hf
  obtain ⟨D, hD⟩ : ∃ D, shellD0 E V = some D := by
    simp [shellD0, div?, hV]
  unfold shellCore shellStiffness2 shellWith
  rw [hl]
  simp only [Option.bind_eq_bind, Option.bind_some, hfr, hD]
  obtain ⟨g0, hp, -, hone, -⟩ := centre_sum
  refine gauss_defined fun g => gauss_defined fun k => ?_
  rw [hone g, hp, shellJ_cross h, normal_up (by have := h.area; positivity)]
  simp only [Option.bind_some]
  rw [f1]
  simp only [Option.bind_some]
  rw [f2, inv?_eq_some.2 ⟨?_, rfl⟩]
  · exact ⟨_, rfl⟩
  · rw [shellJ_det h]
    have := h.area
    positivity

/-- The energy density does not depend on the directions chosen in the plane. -/
theorem density_plane {a b : ℝ} (h : a ^ 2 + b ^ 2 = 1) (H H' : Matrix (Fin 3) (Fin 3) ℝ) :
    shellDensity E V ![a, b, 0] ![-b, a, 0] ![0, 0, 1] H H' = E / (1 - V ^ 2) *
      (H 0 0 * (H' 0 0 + V * H' 1 1) + H 1 1 * (V * H' 0 0 + H' 1 1) + (1 - V) / 2 * ((H 0 1 + H 1 0) * (H' 0 1 + H' 1 0)
        + ((H 0 2 + H 2 0) * (H' 0 2 + H' 2 0) + (H 1 2 + H 2 1) * (H' 1 2 + H' 2 1)) / 1.2)) := by
  simp only [shellDensity, dot3, Matrix.mulVec, Matrix.cons_val_zero, Matrix.cons_val_one, Matrix.cons_val]
  congr 1
  linear_combination ((1 + V) / 2 * ((H 0 0 + H 1 1) * (H' 0 0 + H' 1 1)) * (a ^ 2 + b ^ 2 + 1)
    + (1 - V) / 2 * ((H 0 0 - H 1 1) * (H' 0 0 - H' 1 1) + (H 0 1 + H 1 0) * (H' 0 1 + H' 1 0)) * (a ^ 2 + b ^ 2 + 1)
    + (1 - V) / 2 * (((H 0 2 + H 2 0) * (H' 0 2 + H' 2 0) + (H 1 2 + H 2 1) * (H' 1 2 + H' 2 1)) / 1.2)) * h

/-- The work of the forces of one flat shell element. -/
theorem shellCore_spec {x : List (Vec ℝ)} {p q r s : ℕ} (hX : gather x [p, q, r, s] 4 3 = some X) (h : Flat X)
    (ht : t ≠ 0) (hV : 1 - V ^ 2 ≠ 0) : ∃ A, shellCore E V t X = some A ∧ ∀ v u : ℕ → ℕ → ℝ,
      localField [0, 1, 2, 3, 4, 5] [p, q, r, s] v ⬝ᵥ (A *ᵥ localField [0, 1, 2, 3, 4, 5] [p, q, r, s] u) =
        plateForm x E V t v u [p, q, r, s] := by
  have hc : ∀ j : Fin 3, X 0 j = coord x p j ∧ X 1 j = coord x q j ∧ X 2 j = coord x r j ∧ X 3 j = coord x s j := by
    intro j
    have e0 := gather_entry hX 0 j
    have e1 := gather_entry hX 1 j
    have e2 := gather_entry hX 2 j
    have e3 := gather_entry hX 3 j
    simp at e0 e1 e2 e3
    simp [coord, e0, e1, e2, e3]
  have hV' : 1 - V * V ≠ 0 := by rw [← sq]; exact hV
  obtain ⟨A, hA⟩ := shellCore_defined (E := E) h ht hV'
  refine ⟨A, hA, fun v u => ?_⟩
  obtain ⟨S, hS⟩ := C63_shell2_energy hA
  obtain ⟨v1, v2, hf, f1, f2, z1, n1, e2⟩ := flat_frame h
  have hl : S.l = X 1 - X 0 := (Option.some.inj S.hl).symm
  have hfr : ∀ i, S.v1 i = v1 ∧ S.v2 i = v2 ∧ S.v3 i = ![0, 0, 1] := by
    intro i
    have := S.frame i
    rw [hl, hf i] at this
    simpa [eq_comm] using Option.some.inj this
  have h3 : S.v3 = Matrix.of fun _ => ![0, 0, 1] := by
    funext i
    exact (hfr i).2.2
  obtain ⟨g0, hp, hw, hone, hsum⟩ := centre_sum
  rw [hS, hsum]
  have ha := h.area
  have hP : ∀ k, S.P2 g0 k = ![0, 0, 1] ∧ S.P0 g0 k = ![v1 0, v1 1, 0] ∧ S.P1 g0 k = ![-v1 1, v1 0, 0] := by
    intro k
    have q2 := S.normal g0 k
    rw [h3, hp, shellJ_cross h, normal_up (by positivity)] at q2
    have q0 := S.first g0 k
    rw [← Option.some.inj q2, hl, f1] at q0
    have q1 := S.second g0 k
    rw [← Option.some.inj q2, ← Option.some.inj q0, f2] at q1
    refine ⟨(Option.some.inj q2).symm, ?_, (Option.some.inj q1).symm.trans e2⟩
    rw [← Option.some.inj q0]
    funext k
    fin_cases k
    · rfl
    · rfl
    · exact z1
  have hdir : ∀ (w : Fin 4 × Fin 6 → ℝ) (i : Fin 4), director6 S.v1 S.v2 w i = ![w (i, 4), - w (i, 3), 0] := by
    intro w i
    have : cross3 (rot6 w i) (S.v3 i) = director6 S.v1 S.v2 w i := by
      rw [← (shellFrame_some (S.frame i)).2.2.2.2.2.2, cross3_cross3]
      rfl
    rw [← this, (hfr i).2.2]
    funext k
    fin_cases k <;> simp [cross3, rot6]
  have hA' : flatArea X = quadArea x p q r s := by
    unfold flatArea quadArea span
    simp only [(hc 0).1, (hc 0).2.1, (hc 0).2.2.1, (hc 0).2.2.2, (hc 1).1, (hc 1).2.1, (hc 1).2.2.1, (hc 1).2.2.2]
    rfl
  rw [hA'] at ha
  have hstep : ∀ (k : Fin (IC.gauss2Line : IC ℝ 1).N) (f : ℕ → ℕ → ℝ),
      (let z := (IC.gauss2Line : IC ℝ 1).points k 0
       let H := S.grad (trans6 (localField [0, 1, 2, 3, 4, 5] [p, q, r, s] f))
         (director6 S.v1 S.v2 (localField [0, 1, 2, 3, 4, 5] [p, q, r, s] f)) g0 k
       H 0 0 = slope0 x p q r s (fun m => f m 0) + t / 2 * z * slope0 x p q r s (fun m => f m 4) ∧
       H 1 1 = slope1 x p q r s (fun m => f m 1) + t / 2 * z * slope1 x p q r s (fun m => - f m 3) ∧
       H 0 1 + H 1 0 = slope1 x p q r s (fun m => f m 0) + slope0 x p q r s (fun m => f m 1)
         + t / 2 * z * (slope1 x p q r s (fun m => f m 4) + slope0 x p q r s (fun m => - f m 3)) ∧
       H 0 2 + H 2 0 = slope0 x p q r s (fun m => f m 2) + mean4 p q r s (fun m => f m 4) ∧
       H 1 2 + H 2 1 = slope1 x p q r s (fun m => f m 2) - mean4 p q r s (fun m => f m 3)) := by
    intro k f
    simp only [ShellData.grad, h3, hp, shellJ_inv h ht]
    simp only [shellDu, Matrix.mul_apply, Fin.sum_univ_three, Fin.sum_univ_four, SF.square4, trans6, hdir,
      localField, Matrix.of_apply, Matrix.cons_val_zero, Matrix.cons_val_one, Matrix.cons_val, hA', slope0, slope1, mean4,
      span]
    have c0 := hc 0
    have c1 := hc 1
    simp only [c0.1, c0.2.1, c0.2.2.1, c0.2.2.2, c1.1, c1.2.1, c1.2.2.1, c1.2.2.2]
    simp
    have ha' := ha.ne'
    refine ⟨?_, ?_, ?_, ?_, ?_⟩ <;> field_simp <;> ring
  have key := layer_sum
    (quadArea x p q r s * t / 2 * (planeWork x E V p q r s (fun m => v m 0) (fun m => v m 1) (fun m => u m 0) (fun m => u m 1)
      + E / (1 - V ^ 2) * ((1 - V) / 2) * (((slope0 x p q r s (fun m => v m 2) + mean4 p q r s fun m => v m 4) *
            (slope0 x p q r s (fun m => u m 2) + mean4 p q r s fun m => u m 4)
          + (slope1 x p q r s (fun m => v m 2) - mean4 p q r s fun m => v m 3) *
            (slope1 x p q r s (fun m => u m 2) - mean4 p q r s fun m => u m 3)) / 1.2)))
    (quadArea x p q r s * t / 2 * (t / 2) * (planeWork x E V p q r s (fun m => v m 0) (fun m => v m 1) (fun m => u m 4) (fun m => - u m 3)
      + planeWork x E V p q r s (fun m => v m 4) (fun m => - v m 3) (fun m => u m 0) (fun m => u m 1)))
    (quadArea x p q r s * t / 2 * (t ^ 2 / 4) * planeWork x E V p q r s (fun m => v m 4) (fun m => - v m 3) (fun m => u m 4) (fun m => - u m 3))
  refine Eq.trans (Finset.sum_congr rfl fun k _ => ?_) (key.trans ?_)
  · obtain ⟨a1, a2, a3, a4, a5⟩ := hstep k v
    obtain ⟨b1, b2, b3, b4, b5⟩ := hstep k u
    obtain ⟨q1, q2, q3⟩ := hP k
    rw [q1, q2, q3, density_plane n1, a1, a2, a3, a4, a5, b1, b2, b3, b4, b5]
    simp only [ShellData.weight, h3, hp, hw, shellJ_det h, hA', Matrix.cons_val_zero, Matrix.cons_val_one, planeWork]
    ring
  · have hG : E / (1 - V ^ 2) * ((1 - V) / 2) / (6 / 5) = beamShear E V := by
      have h1 : 1 + V ≠ 0 := fun h0 => hV (by linear_combination (1 - V) * h0)
      have h2 : 1 - V ≠ 0 := fun h0 => hV (by linear_combination (1 + V) * h0)
      have : 1 - V ^ 2 = (1 - V) * (1 + V) := by ring
      rw [this]
      unfold beamShear
      field_simp
    have h12 : (1.2 : ℝ) = 6 / 5 := by norm_num
    simp only [plateForm, ← hG, h12]
    ring

end Pansfem
