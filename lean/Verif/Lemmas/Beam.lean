/-
The beam element of the beam program in terms of its nodes.
-/
import Verif.Model.ProgramBeam
import Verif.Spec.Beam
import Verif.Props.C63_BeamShell
import Verif.Lemmas.ProgramElement

namespace Pansfem

open Matrix

theorem line_sum : ∃ g0 : Fin (IC.gauss1Line : IC ℝ 1).N, (IC.gauss1Line : IC ℝ 1).points g0 = ![0] ∧
    (IC.gauss1Line : IC ℝ 1).weights g0 = ![2] ∧ (∀ g, g = g0) ∧
    ∀ f : Fin (IC.gauss1Line : IC ℝ 1).N → ℝ, ∑ g, f g = f g0 :=
  ⟨(0 : Fin 1), rfl, rfl, fun g => Subsingleton.elim (α := Fin 1) _ _, fun f => Fin.sum_univ_one (fun i : Fin 1 => f i)⟩

/-- Sums over the four points of the section of expressions of degree two. -/
theorem section_sum (c c0 c1 c00 c11 c01 : ℝ) : ∑ h : Fin (IC.gauss4Square : IC ℝ 2).N,
    (IC.gauss4Square : IC ℝ 2).weights h 0 * (IC.gauss4Square : IC ℝ 2).weights h 1 *
      (c + c0 * (IC.gauss4Square : IC ℝ 2).points h 0 + c1 * (IC.gauss4Square : IC ℝ 2).points h 1
        + c00 * (IC.gauss4Square : IC ℝ 2).points h 0 ^ 2 + c11 * (IC.gauss4Square : IC ℝ 2).points h 1 ^ 2
        + c01 * ((IC.gauss4Square : IC ℝ 2).points h 0 * (IC.gauss4Square : IC ℝ 2).points h 1)) =
      4 * c + 4 / 3 * c00 + 4 / 3 * c11 := by
  have h3 : (√3 : ℝ) ≠ 0 := by positivity
  have hs : (√3 : ℝ) ^ 2 = 3 := Real.sq_sqrt (by norm_num)
  have : ∀ f : Fin (IC.gauss4Square : IC ℝ 2).N → ℝ, ∑ g, f g = f (0 : Fin 4) + f (1 : Fin 4) + f (2 : Fin 4) + f (3 : Fin 4) :=
    fun f => Fin.sum_univ_four (fun i : Fin 4 => f i)
  rw [this]
  have p0 : (IC.gauss4Square : IC ℝ 2).points (0 : Fin 4) = ![-1 / √3, -1 / √3] := rfl
  have p1 : (IC.gauss4Square : IC ℝ 2).points (1 : Fin 4) = ![1 / √3, -1 / √3] := rfl
  have p2 : (IC.gauss4Square : IC ℝ 2).points (2 : Fin 4) = ![-1 / √3, 1 / √3] := rfl
  have p3 : (IC.gauss4Square : IC ℝ 2).points (3 : Fin 4) = ![1 / √3, 1 / √3] := rfl
  have w0 : (IC.gauss4Square : IC ℝ 2).weights (0 : Fin 4) = ![1, 1] := rfl
  have w1 : (IC.gauss4Square : IC ℝ 2).weights (1 : Fin 4) = ![1, 1] := rfl
  have w2 : (IC.gauss4Square : IC ℝ 2).weights (2 : Fin 4) = ![1, 1] := rfl
  have w3 : (IC.gauss4Square : IC ℝ 2).weights (3 : Fin 4) = ![1, 1] := rfl
  simp only [p0, p1, p2, p3, w0, w1, w2, w3, Matrix.cons_val_zero, Matrix.cons_val_one]
  have hi : (1 / √3 : ℝ) ^ 2 = 1 / 3 := by rw [div_pow, hs]; norm_num
  have hn : (-1 / √3 : ℝ) = - (1 / √3) := by ring
  rw [hn]
  generalize (1 / √3 : ℝ) = s at hi
  linear_combination (4 * c00 + 4 * c11) * hi

theorem gauss_defined {M : Type} [AddCommMonoid M] {N : ℕ} {term : Fin N → Option M} (h : ∀ g, ∃ v, term g = some v) :
    ∃ s, gauss N term = some s := by
  choose v hv using h
  exact ⟨_, gauss_eq_some.2 ⟨v, hv, rfl⟩⟩

theorem normal_y : normal? ![0, 1, 0] = some ![0, 1, 0] := by
  simp [normal?, dotProduct, Fin.sum_univ_three]

theorem normal_z : normal? ![0, 0, 1] = some ![0, 0, 1] := by
  simp [normal?, dotProduct, Fin.sum_univ_three]

theorem normal_x : normal? (cross3 ![0, 1, 0] ![0, 0, 1]) = some ![1, 0, 0] := by
  have : cross3 ![0, 1, 0] ![0, 0, 1] = ![1, 0, 0] := by
    funext k; fin_cases k <;> simp [cross3]
  rw [this]
  simp [normal?, dotProduct, Fin.sum_univ_three]

/-- The inverse Jacobian of a beam with section in the directions of the second and third axis. -/
noncomputable def beamInv (X : Matrix (Fin 2) (Fin 3) ℝ) (a b : ℝ) : Matrix (Fin 3) (Fin 3) ℝ :=
  Matrix.of ![![2 / (X 1 0 - X 0 0), -(2 * (X 1 1 - X 0 1)) / (a * (X 1 0 - X 0 0)),
      -(2 * (X 1 2 - X 0 2)) / (b * (X 1 0 - X 0 0))],
    ![0, 2 / a, 0], ![0, 0, 2 / b]]

variable {X : Matrix (Fin 2) (Fin 3) ℝ} {E V a b : ℝ}

theorem beamJ_eq (X : Matrix (Fin 2) (Fin 3) ℝ) (a b : ℝ) (s : Fin 2 → ℝ) :
    beamJ SF.line2 X (Matrix.of fun _ => ![0, 1, 0]) (Matrix.of fun _ => ![0, 0, 1]) a b ![0] s =
      Matrix.of ![![(X 1 0 - X 0 0) / 2, (X 1 1 - X 0 1) / 2, (X 1 2 - X 0 2) / 2], ![0, a / 2, 0], ![0, 0, b / 2]] := by
  ext i j
  fin_cases i <;> fin_cases j <;>
    simp [beamJ, SF.line2, Matrix.mul_apply, Fin.sum_univ_two] <;> ring

theorem beamJ_det (X : Matrix (Fin 2) (Fin 3) ℝ) (a b : ℝ) (s : Fin 2 → ℝ) :
    (beamJ SF.line2 X (Matrix.of fun _ => ![0, 1, 0]) (Matrix.of fun _ => ![0, 0, 1]) a b ![0] s).det =
      (X 1 0 - X 0 0) * a * b / 8 := by
  rw [beamJ_eq, Matrix.det_fin_three]
  simp
  ring

theorem beamJ_inv (hx : X 1 0 - X 0 0 ≠ 0) (ha : a ≠ 0) (hb : b ≠ 0) (s : Fin 2 → ℝ) :
    (beamJ SF.line2 X (Matrix.of fun _ => ![0, 1, 0]) (Matrix.of fun _ => ![0, 0, 1]) a b ![0] s)⁻¹ = beamInv X a b := by
  refine Matrix.inv_eq_left_inv ?_
  rw [beamJ_eq]
  ext i j
  fin_cases i <;> fin_cases j <;>
    simp [beamInv, Matrix.mul_apply, Fin.sum_univ_three] <;> (try field_simp) <;> (try ring) <;> assumption

theorem axis_sum (p : Fin 3 → ℝ) : (fun k => ∑ i : Fin 2, (Matrix.of fun _ => p : Matrix (Fin 2) (Fin 3) ℝ) i k *
    (SF.line2 : SF ℝ 1 2).N ![0] i) = p := by
  funext k
  simp [SF.line2, Fin.sum_univ_two]
  ring

/-- The routine is defined on beams that extend along the first axis. -/
theorem beamCore_defined (hx : X 1 0 - X 0 0 ≠ 0) (ha : a ≠ 0) (hb : b ≠ 0) (hV : 1 + V ≠ 0) :
    ∃ A, beamCore E V a b X = some A := by
  have h1 : (allSome fun i : Fin 2 => normal? ((Matrix.of fun _ => ![0, 1, 0] : Matrix (Fin 2) (Fin 3) ℝ) i)) =
      some (Matrix.of fun _ => ![0, 1, 0]) := allSome_eq_some.2 fun i => normal_y
  have h2 : (allSome fun i : Fin 2 => normal? ((Matrix.of fun _ => ![0, 0, 1] : Matrix (Fin 2) (Fin 3) ℝ) i)) =
      some (Matrix.of fun _ => ![0, 0, 1]) := allSome_eq_some.2 fun i => normal_z
  obtain ⟨D, hD⟩ : ∃ D, beamD0 E V = some D := by
    simp [beamD0, div?, hV]
  unfold beamCore beamStiffness
  rw [h1, h2, hD]
  simp only [Option.bind_eq_bind, Option.bind_some]
  obtain ⟨g0, hp, -, hone, -⟩ := line_sum
  refine gauss_defined fun g => gauss_defined fun h => ?_
  rw [hone g, hp, axis_sum, axis_sum, normal_y, normal_z]
  simp only [Option.bind_some]
  rw [normal_x, inv?_eq_some.2 ⟨?_, rfl⟩]
  · exact ⟨_, rfl⟩
  · rw [beamJ_det]
    positivity

/-- On beams upright to the first axis the routine divides by zero. -/
theorem beamCore_upright (hx : X 1 0 = X 0 0) : beamCore E V a b X = none := by
  cases h : beamCore E V a b X with
  | none => rfl
  | some A =>
    exfalso
    obtain ⟨v1, v2, D0, P0, P1, P2, e1, e2, -, hP, -⟩ := beamStiffness_some h
    obtain ⟨g0, hp, -, -, -⟩ := line_sum
    have f1 : v1 = Matrix.of fun _ => ![0, 1, 0] := by
      funext i
      exact (Option.some.inj (normal_y.symm.trans (e1 i))).symm
    have f2 : v2 = Matrix.of fun _ => ![0, 0, 1] := by
      funext i
      exact (Option.some.inj (normal_z.symm.trans (e2 i))).symm
    have := (hP g0 (0 : Fin 4)).1
    rw [hp, f1, f2, beamJ_det, hx] at this
    simp at this

/-- The work of the forces of one beam. -/
theorem beamCore_spec {x : List (Vec ℝ)} {m n : ℕ} (h : gather x [m, n] 2 3 = some X) (hx : span x m n 0 ≠ 0)
    (ha : a ≠ 0) (hb : b ≠ 0) (hV : 1 + V ≠ 0) : ∃ A, beamCore E V a b X = some A ∧ ∀ v u : ℕ → ℕ → ℝ,
      localField [0, 1, 2, 3, 4, 5] [m, n] v ⬝ᵥ (A *ᵥ localField [0, 1, 2, 3, 4, 5] [m, n] u) =
        beamForm x E V a b v u [m, n] := by
  have hX : ∀ j : Fin 3, X 0 j = coord x m j ∧ X 1 j = coord x n j := by
    intro j
    have e0 := gather_entry h 0 j
    have e1 := gather_entry h 1 j
    simp at e0 e1
    simp [coord, e0, e1]
  have hs : ∀ j : Fin 3, X 1 j - X 0 j = span x m n j := by
    intro j
    rw [(hX j).1, (hX j).2]
    rfl
  have hs0 : X 1 0 - X 0 0 = span x m n 0 := hs 0
  have hs1 : X 1 1 - X 0 1 = span x m n 1 := hs 1
  have hs2 : X 1 2 - X 0 2 = span x m n 2 := hs 2
  have hx' : X 1 0 - X 0 0 ≠ 0 := by rw [hs0]; exact hx
  obtain ⟨A, hA⟩ := beamCore_defined (E := E) hx' ha hb hV
  refine ⟨A, hA, fun v u => ?_⟩
  obtain ⟨v1, v2, P0, P1, P2, e1, e2, hP, hu⟩ := C63_beam_energy hA
  have f1 : v1 = Matrix.of fun _ => ![0, 1, 0] := by
    funext i
    exact (Option.some.inj (normal_y.symm.trans (e1 i))).symm
  have f2 : v2 = Matrix.of fun _ => ![0, 0, 1] := by
    funext i
    exact (Option.some.inj (normal_z.symm.trans (e2 i))).symm
  subst f1 f2
  obtain ⟨g0, hp, hw, hone, hsum⟩ := line_sum
  rw [hu, hsum]
  have hP' : ∀ k, P1 g0 k = ![0, 1, 0] ∧ P2 g0 k = ![0, 0, 1] ∧ P0 g0 k = ![1, 0, 0] := by
    intro k
    obtain ⟨q1, q2, q3⟩ := hP g0 k
    rw [hp, axis_sum, normal_y] at q1
    rw [hp, axis_sum, normal_z] at q2
    rw [← Option.some.inj q1, ← Option.some.inj q2, normal_x] at q3
    exact ⟨(Option.some.inj q1).symm, (Option.some.inj q2).symm, (Option.some.inj q3).symm⟩
  have hstep : ∀ (k : Fin (IC.gauss4Square : IC ℝ 2).N) (f : ℕ → ℕ → ℝ),
      (let s := (IC.gauss4Square : IC ℝ 2).points k
       let H := beamInv X a b * beamDu SF.line2 (Matrix.of fun _ => ![0, 1, 0]) (Matrix.of fun _ => ![0, 0, 1]) a b ![0] s
         (localField [0, 1, 2, 3, 4, 5] [m, n] f)
       H 0 0 = slip x m n f 0 + b / 2 * s 1 * bend x m n f 1 - a / 2 * s 0 * bend x m n f 2 ∧
       H 0 1 + H 1 0 = slip x m n f 1 - b / 2 * s 1 * bend x m n f 0 ∧
       H 0 2 + H 2 0 = slip x m n f 2 + a / 2 * s 0 * bend x m n f 0) := by
    intro k f
    simp only [beamInv, beamDu, Matrix.mul_apply, Fin.sum_univ_three, Fin.sum_univ_two, SF.line2, trans6, rot6,
      cross3, localField, slip, bend, endMean, Matrix.of_apply, Matrix.cons_val_zero, Matrix.cons_val_one,
      Matrix.cons_val, hs0, hs1, hs2]
    simp
    refine ⟨?_, ?_, ?_⟩ <;> field_simp <;> ring
  have hax : ∀ H : Matrix (Fin 3) (Fin 3) ℝ, ![1, 0, 0] ⬝ᵥ (H *ᵥ ![1, 0, 0]) = H 0 0 ∧
      ![1, 0, 0] ⬝ᵥ (H *ᵥ ![0, 1, 0]) + ![0, 1, 0] ⬝ᵥ (H *ᵥ ![1, 0, 0]) = H 0 1 + H 1 0 ∧
      ![1, 0, 0] ⬝ᵥ (H *ᵥ ![0, 0, 1]) + ![0, 0, 1] ⬝ᵥ (H *ᵥ ![1, 0, 0]) = H 0 2 + H 2 0 := by
    intro H
    simp [Matrix.mulVec, dotProduct, Fin.sum_univ_three]
  set G := E / (2 * (1 + V)) / (1.2 : ℝ) with hG
  have hG' : beamShear E V = G := by
    rw [hG]
    norm_num [beamShear]
  have key := section_sum
    (span x m n 0 * a * b / 4 * (E * (slip x m n v 0 * slip x m n u 0) +
      G * (slip x m n v 1 * slip x m n u 1 + slip x m n v 2 * slip x m n u 2)))
    (span x m n 0 * a * b / 4 * (E * (-(a / 2) * (slip x m n v 0 * bend x m n u 2 + bend x m n v 2 * slip x m n u 0)) +
      G * (a / 2 * (slip x m n v 2 * bend x m n u 0 + bend x m n v 0 * slip x m n u 2))))
    (span x m n 0 * a * b / 4 * (E * (b / 2 * (slip x m n v 0 * bend x m n u 1 + bend x m n v 1 * slip x m n u 0)) +
      G * (-(b / 2) * (slip x m n v 1 * bend x m n u 0 + bend x m n v 0 * slip x m n u 1))))
    (span x m n 0 * a * b / 4 * (E * (a ^ 2 / 4 * (bend x m n v 2 * bend x m n u 2)) +
      G * (a ^ 2 / 4 * (bend x m n v 0 * bend x m n u 0))))
    (span x m n 0 * a * b / 4 * (E * (b ^ 2 / 4 * (bend x m n v 1 * bend x m n u 1)) +
      G * (b ^ 2 / 4 * (bend x m n v 0 * bend x m n u 0))))
    (span x m n 0 * a * b / 4 * (E * (-(a * b / 4) * (bend x m n v 1 * bend x m n u 2 + bend x m n v 2 * bend x m n u 1))))
  refine Eq.trans (Finset.sum_congr rfl fun k _ => ?_) (key.trans ?_)
  · obtain ⟨a1, a2, a3⟩ := hstep k v
    obtain ⟨b1, b2, b3⟩ := hstep k u
    obtain ⟨q1, q2, q3⟩ := hP' k
    simp only [q1, q2, q3, hp, hw, beamJ_inv hx' ha hb, beamJ_det, hax, Matrix.cons_val_zero, hs0]
    rw [a1, a2, a3, b1, b2, b3]
    ring
  · simp only [beamForm, hG']
    ring

end Pansfem
