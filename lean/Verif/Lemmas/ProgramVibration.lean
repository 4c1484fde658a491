/-
Mass matrices of quadrilaterals with eight nodes, and matrices assembled without right-hand side.
-/
import Verif.Spec.ProgramVibration
import Verif.Lemmas.ProgramSolve
import Verif.Lemmas.ProgramPost
import Verif.Lemmas.Elastic
import Verif.Lemmas.ProgramElement
import Verif.Props.C34_Energy

namespace Pansfem

open Matrix

theorem mapM_entries {α β : Type} {f : α → Option β} : ∀ {l : List α} {r : List β}, l.mapM f = some r →
    r.length = l.length ∧ ∀ (k : ℕ) (b : β), r[k]? = some b → ∃ a, l[k]? = some a ∧ f a = some b := by
  intro l
  induction l with
  | nil => intro r h; simp at h; subst h; simp
  | cons a l ih =>
    intro r h
    simp only [List.mapM_cons, Option.pure_def, Option.bind_eq_bind, Option.bind_eq_some_iff] at h
    obtain ⟨b, hb, s, hs, h⟩ := h
    cases h
    obtain ⟨h1, h2⟩ := ih hs
    refine ⟨by simp [h1], fun k c hc => ?_⟩
    cases k with
    | zero => simp at hc; exact ⟨a, by simp, by rw [hb, hc]⟩
    | succ k => simpa using h2 k c (by simpa using hc)

/-! ### Mass matrix -/

theorem quad_zero {s a b c : ℝ} (hs : s ≠ 0) (h0 : a = 0) (hp : a + b * s + c * s ^ 2 = 0)
    (hm : a - b * s + c * s ^ 2 = 0) : a = 0 ∧ b = 0 ∧ c = 0 := by
  subst h0
  have h1 : b * s = 0 := by linarith
  have h2 : c * s ^ 2 = 0 := by linarith
  exact ⟨rfl, (mul_eq_zero.1 h1).resolve_right hs, (mul_eq_zero.1 h2).resolve_right (pow_ne_zero 2 hs)⟩

/-- Nine coefficients from nine values. -/
theorem biquad_zero {s : ℝ} (hs : s ≠ 0) {c : Fin 3 → Fin 3 → ℝ}
    (h : ∀ p ∈ [-s, 0, s], ∀ q ∈ [-s, 0, s],
      (c 0 0 + c 0 1 * q + c 0 2 * q ^ 2) + (c 1 0 + c 1 1 * q + c 1 2 * q ^ 2) * p +
        (c 2 0 + c 2 1 * q + c 2 2 * q ^ 2) * p ^ 2 = 0) : ∀ i j, c i j = 0 := by
  have row : ∀ q ∈ [-s, 0, s], (c 0 0 + c 0 1 * q + c 0 2 * q ^ 2) = 0 ∧ (c 1 0 + c 1 1 * q + c 1 2 * q ^ 2) = 0 ∧
      (c 2 0 + c 2 1 * q + c 2 2 * q ^ 2) = 0 := by
    intro q hq
    have a1 := h (-s) (by simp) q hq
    have a2 := h 0 (by simp) q hq
    have a3 := h s (by simp) q hq
    exact quad_zero hs (by linear_combination a2) (by linear_combination a3) (by linear_combination a1)
  have col : ∀ i, c i 0 = 0 ∧ c i 1 = 0 ∧ c i 2 = 0 := by
    intro i
    have a1 := row (-s) (by simp)
    have a2 := row 0 (by simp)
    have a3 := row s (by simp)
    match i with
    | 0 => exact quad_zero hs (by linear_combination a2.1) (by linear_combination a3.1) (by linear_combination a1.1)
    | 1 =>
      exact quad_zero hs (by linear_combination a2.2.1) (by linear_combination a3.2.1) (by linear_combination a1.2.1)
    | 2 =>
      exact quad_zero hs (by linear_combination a2.2.2) (by linear_combination a3.2.2) (by linear_combination a1.2.2)
  intro i j
  fin_cases j
  · exact (col i).1
  · exact (col i).2.1
  · exact (col i).2.2

/-- The coefficients of the polynomial with given nodal values. -/
noncomputable def serendipity (v : Fin 8 → ℝ) : Fin 3 → Fin 3 → ℝ := ![
  ![1 / 4 * (-v 0 - v 1 - v 2 - v 3) + 1 / 2 * (v 4 + v 5 + v 6 + v 7), 1 / 2 * (v 6 - v 4),
    1 / 4 * (v 0 + v 1 + v 2 + v 3) - 1 / 2 * (v 5 + v 7)],
  ![1 / 2 * (v 5 - v 7), 1 / 4 * (v 0 - v 1 + v 2 - v 3), 1 / 4 * (-v 0 + v 1 + v 2 - v 3) - 1 / 2 * (v 5 - v 7)],
  ![1 / 4 * (v 0 + v 1 + v 2 + v 3) - 1 / 2 * (v 4 + v 6),
    1 / 4 * (-v 0 - v 1 + v 2 + v 3) - 1 / 2 * (v 6 - v 4), 0]]

theorem square8_poly (v : Fin 8 → ℝ) (p q : ℝ) : SF.square8.N ![p, q] ⬝ᵥ v =
    (serendipity v 0 0 + serendipity v 0 1 * q + serendipity v 0 2 * q ^ 2) +
      (serendipity v 1 0 + serendipity v 1 1 * q + serendipity v 1 2 * q ^ 2) * p +
      (serendipity v 2 0 + serendipity v 2 1 * q + serendipity v 2 2 * q ^ 2) * p ^ 2 := by
  simp [SF.square8, serendipity, dotProduct, Fin.sum_univ_succ]
  ring

/-- A field that vanishes at the nine integration points vanishes at the eight nodes. -/
theorem square8_zero {v : Fin 8 → ℝ} (h : ∀ g, SF.square8.N (IC.gauss9Square.points g) ⬝ᵥ v = 0) : v = 0 := by
  have hs : √(3 / 5 : ℝ) ≠ 0 := by positivity
  have hc := biquad_zero hs (c := serendipity v) (by
    intro p hp q hq
    rw [← square8_poly]
    simp only [List.mem_cons, List.not_mem_nil, or_false] at hp hq
    rcases hp with rfl | rfl | rfl <;> rcases hq with rfl | rfl | rfl
    · exact h (0 : Fin 9)
    · exact h (3 : Fin 9)
    · exact h (6 : Fin 9)
    · exact h (1 : Fin 9)
    · exact h (4 : Fin 9)
    · exact h (7 : Fin 9)
    · exact h (2 : Fin 9)
    · exact h (5 : Fin 9)
    · exact h (8 : Fin 9))
  have c00 := hc 0 0
  have c01 := hc 0 1
  have c02 := hc 0 2
  have c10 := hc 1 0
  have c11 := hc 1 1
  have c12 := hc 1 2
  have c20 := hc 2 0
  have c21 := hc 2 1
  simp [serendipity] at c00 c01 c02 c10 c11 c12 c20 c21
  funext i
  fin_cases i <;> simp <;> linarith

/-- The mass matrix of an element is positive definite. -/
theorem planeMass_zero {X : Matrix (Fin 8) (Fin 2) ℝ} {rho t : ℝ}
    (hm : ∀ g, 0 < measure2 SF.square8 IC.gauss9Square X g) (hr : 0 < rho) (ht : 0 < t)
    {Me : Matrix (Fin 8 × Fin 2) (Fin 8 × Fin 2) ℝ} (h : planeMass SF.square8 IC.gauss9Square X rho t = some Me)
    {u : Fin 8 × Fin 2 → ℝ} (hu : u ⬝ᵥ (Me *ᵥ u) = 0) : u = 0 := by
  rw [planeMass_eq_some.1 h] at hu
  have e : ∀ g, u ⬝ᵥ (((measure2 SF.square8 IC.gauss9Square X g * (rho * t)) •
      ((planeN (SF.square8.N (IC.gauss9Square.points g)))ᵀ * planeN (SF.square8.N (IC.gauss9Square.points g)))) *ᵥ u) =
      measure2 SF.square8 IC.gauss9Square X g * (rho * t) *
        ((planeN (SF.square8.N (IC.gauss9Square.points g)) *ᵥ u) ⬝ᵥ
          (planeN (SF.square8.N (IC.gauss9Square.points g)) *ᵥ u)) := by
    intro g
    rw [Matrix.smul_mulVec, dotProduct_smul, smul_eq_mul, ← Matrix.mulVec_mulVec, Matrix.dotProduct_mulVec,
      Matrix.vecMul_transpose]
  rw [Pansfem.mulVec_sum, dotProduct_sum] at hu
  simp only [e] at hu
  have hnn : ∀ g ∈ Finset.univ, 0 ≤ measure2 SF.square8 IC.gauss9Square X g * (rho * t) *
      ((planeN (SF.square8.N (IC.gauss9Square.points g)) *ᵥ u) ⬝ᵥ
        (planeN (SF.square8.N (IC.gauss9Square.points g)) *ᵥ u)) := fun g _ =>
    mul_nonneg (mul_pos (hm g) (mul_pos hr ht)).le (Finset.sum_nonneg fun _ _ => mul_self_nonneg _)
  have hz : ∀ g, planeN (SF.square8.N (IC.gauss9Square.points g)) *ᵥ u = 0 := by
    intro g
    have := (Finset.sum_eq_zero_iff_of_nonneg hnn).1 hu g (Finset.mem_univ g)
    exact dotProduct_self_eq_zero.1 ((mul_eq_zero.1 this).resolve_left (mul_pos (hm g) (mul_pos hr ht)).ne')
  have hcomp : ∀ j : Fin 2, (fun i : Fin 8 => u (i, j)) = 0 := by
    intro j
    apply square8_zero
    intro g
    have := congrFun (hz g) j
    refine Eq.trans ?_ this
    simp [planeN, Matrix.mulVec, dotProduct, Fintype.sum_prod_type]
    fin_cases j <;> simp [Fin.sum_univ_two]
  funext ⟨i, j⟩
  exact congrFun (hcomp j) i

/-! ### Matrices assembled without right-hand side -/

theorem asmK_eff {c : ElemData ℝ} {t : List (List ℤ)} {u : List (Vec ℝ)} {N : ℕ} (hN : Numbered t N)
    (h : c.call.Fits t u) :
    HasEff (okK N) obsK (asmK c.Ke t c.nte c.element) (fun I J => contribK (numOf t) c.call.mat c.call.dofs I J) := by
  obtain ⟨hl, hke⟩ := h.2
  have hn : ∀ p ∈ localDofs c.nte c.element, dofNum t p.1 p.2.1 = some (numOf t p.1 p.2.1) := h.num
  have hr : ∀ p ∈ localDofs c.nte c.element, numOf t p.1 p.2.1 = -1 ∨ ∃ I : ℕ, numOf t p.1 p.2.1 = I ∧ I < N := h.range hN
  have hke' : ∀ p ∈ localDofs c.nte c.element, ∀ q ∈ localDofs c.nte c.element,
      c.Ke.at? p.2.2 q.2.2 = some (c.call.mat p.2.2 q.2.2) := fun p hp q hq => getD_of_isSome (hke p hp q hq)
  have e := (hasEff_foldlM (localDofs c.nte c.element) _ _ fun p hp => asmK_row' hn hr hke' hp).congr
    (rowK_sum (numOf t) c.call.mat _)
  intro A hA
  obtain ⟨A', h1, h2, h3⟩ := e A hA
  refine ⟨A', ?_, h2, h3⟩
  rw [← h1]
  unfold asmK
  rw [forDofs_eq _ _ hl]
  simp only [forDofs_eq _ _ hl, Option.bind_eq_bind, Option.pure_def]

theorem asmMatrix_system {t : List (List ℤ)} {u : List (Vec ℝ)} {N : ℕ} (hN : Numbered t N)
    {items : List (ElemData ℝ)} (h : ∀ it ∈ items, it.call.Fits t u) :
    ∃ A, asmMatrix t items (LIL.new N N) = some A ∧ okK N A ∧
      ∀ I J, obsK A I J = ((items.map ElemData.call).map fun c => contribK (numOf t) c.mat c.dofs I J).sum := by
  obtain ⟨A, h1, h2, h3⟩ := hasEff_foldlM items _ _ (fun c hc => asmK_eff hN (h c hc)) (LIL.new N N) (holds_new_ok N)
  refine ⟨A, h1, h2, fun I J => ?_⟩
  rw [h3]
  rw [obsK_new, zero_add, sum_apply1, sum_apply1, List.map_map]
  rfl

theorem fieldOf_spread {N : ℕ} (t : List (List ℤ)) (y : Fin N → ℝ) :
    fieldOf t y = spread t (fun _ _ => 0) (obsF (List.ofFn y)) := by
  funext n d
  unfold fieldOf spread
  split_ifs with h1 h2
  · rfl
  · exact (obsF_ofFn y ⟨_, h2⟩).symm
  · simp [obsF, h2]

/-- The assembled matrix is the bilinear form of the elements. -/
theorem asmMatrix_form {t : List (List ℤ)} {u : List (Vec ℝ)} {N : ℕ} (hN : Numbered t N)
    {items : List (ElemData ℝ)} (h : ∀ it ∈ items, it.call.Fits t u) (hsym : SymmetricCalls (items.map ElemData.call)) :
    ∃ A m s' M, asmMatrix t items (LIL.new N N) = some A ∧ CSR.ofLIL A = some (m, s') ∧ IsCSR N m M ∧
      FormOf t items M ∧ ∀ i j, M i j = M j i := by
  obtain ⟨A, h1, h2, h3⟩ := asmMatrix_system hN h
  obtain ⟨m, s', h4, h5⟩ := csr_of_ok h2
  refine ⟨A, m, s', _, h1, h4, h5, fun y z => ?_, fun i j => ?_⟩
  · have := system_energy hN (calls := items.map ElemData.call) (u := u) (by simpa using h) (obsF (List.ofFn z))
      (obsF (List.ofFn y))
    simp only [← h3] at this
    simp only [Finset.sum_range, obsF_ofFn] at this
    rw [fieldOf_spread, fieldOf_spread, ← this]
    rfl
  · simp only [h3]
    exact congrArg List.sum (List.map_congr_left fun c hc => contribK_symm _ _ _ (hsym c hc) _ _)

/-! ### Elements -/

theorem elemItems_isSome {n d k : ℕ} {core : Matrix (Fin n) (Fin d) ℝ → Option (Matrix (Fin n × Fin k) (Fin n × Fin k) ℝ)}
    {dl : List ℕ} {x : List (Vec ℝ)} {elements : List (List ℕ)} (hd : dl.length = k)
    (h : ∀ e ∈ elements, ∃ X A, gather x e n d = some X ∧ core X = some A) :
    (elemItems k core dl x elements).isSome := by
  refine mapM_isSome fun e he => ?_
  obtain ⟨X, A, hX, hA⟩ := h e he
  rw [(elemM_eq_some (core := core)).2 ⟨hd, X, A, hX, hA, rfl, rfl⟩]
  rfl

theorem gather_rows {n : ℕ} {x : List (Vec ℝ)} {e : List ℕ} {X : Matrix (Fin n) (Fin 2) ℝ}
    (h : gather x e n 2 = some X) : X = nodeRows n x e := by
  ext i j
  have := gather_entry h i j
  simp only [nodeRows, Matrix.of_apply, coord, this, Option.getD_some]

theorem gauss9_weights (g : Fin IC.gauss9Square.N) :
    0 < (IC.gauss9Square : IC ℝ 2).weights g 0 ∧ 0 < (IC.gauss9Square : IC ℝ 2).weights g 1 := by
  have h : ∀ i : Fin 9, (0 : ℝ) < (![![5 / 9, 5 / 9], ![8 / 9, 5 / 9], ![5 / 9, 5 / 9], ![5 / 9, 8 / 9], ![8 / 9, 8 / 9],
      ![5 / 9, 8 / 9], ![5 / 9, 5 / 9], ![8 / 9, 5 / 9], ![5 / 9, 5 / 9]] : Fin 9 → Fin 2 → ℝ) i 0 ∧
      (0 : ℝ) < (![![5 / 9, 5 / 9], ![8 / 9, 5 / 9], ![5 / 9, 5 / 9], ![5 / 9, 8 / 9], ![8 / 9, 8 / 9],
      ![5 / 9, 8 / 9], ![5 / 9, 5 / 9], ![8 / 9, 5 / 9], ![5 / 9, 5 / 9]] : Fin 9 → Fin 2 → ℝ) i 1 := by
    intro i
    fin_cases i <;> constructor <;> norm_num
  exact h g

theorem quad8_measure {x : List (Vec ℝ)} {e : List ℕ} {X : Matrix (Fin 8) (Fin 2) ℝ} (h : gather x e 8 2 = some X)
    (hp : ∀ g : Fin IC.gauss9Square.N, 0 < (SF.square8.dNdr (IC.gauss9Square.points g) * nodeRows 8 x e).det)
    (g : Fin IC.gauss9Square.N) : 0 < measure2 SF.square8 IC.gauss9Square X g := by
  rw [measure2, gather_rows h]
  exact mul_pos (mul_pos (hp g) (gauss9_weights g).1) (gauss9_weights g).2

theorem quad8_regular {x : List (Vec ℝ)} {e : List ℕ} {X : Matrix (Fin 8) (Fin 2) ℝ} (h : gather x e 8 2 = some X)
    (hp : ∀ g : Fin IC.gauss9Square.N, 0 < (SF.square8.dNdr (IC.gauss9Square.points g) * nodeRows 8 x e).det) :
    Regular SF.square8 IC.gauss9Square X := by
  intro g
  rw [gather_rows h]
  exact (hp g).ne'

end Pansfem
