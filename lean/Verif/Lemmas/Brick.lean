/-
Fields without strain at the eight integration points of a parallelepiped.
-/
import Verif.Props.C33_RigidMotions
import Verif.Props.C34_Energy
import Verif.Props.C74_Measures

namespace Pansfem

open Matrix

/-- The nodes of a parallelepiped with a corner at `o` and the rows of `A` as edges, in the order of
`ShapeFunction8Cubic`. -/
def brick (o : Fin 3 → ℝ) (A : Matrix (Fin 3) (Fin 3) ℝ) : Matrix (Fin 8) (Fin 3) ℝ :=
  fun i j => o j + (unitCube * A) i j

theorem brick_jac (o : Fin 3 → ℝ) (A : Matrix (Fin 3) (Fin 3) ℝ) (r : Fin 3 → ℝ) :
    SF.cubic8.dNdr r * brick o A = (1 / 2 : ℝ) • A := by
  ext i j
  fin_cases i <;> simp [Matrix.mul_apply, Fin.sum_univ_succ, SF.cubic8, brick, unitCube] <;> ring

/-- A polynomial with the monomials `1`, `s`, `t`, `st` that vanishes at four points of a square around the origin is
zero. -/
theorem bilinear_zero {g c0 c1 c2 c3 : ℝ} (hg : g ≠ 0) (h1 : c0 + c1 * g + c2 * g + c3 * (g * g) = 0)
    (h2 : c0 + c1 * (-g) + c2 * g + c3 * (-g * g) = 0) (h3 : c0 + c1 * g + c2 * (-g) + c3 * (g * -g) = 0)
    (h4 : c0 + c1 * (-g) + c2 * (-g) + c3 * (-g * -g) = 0) : c0 = 0 ∧ c1 = 0 ∧ c2 = 0 ∧ c3 = 0 := by
  have k0 : c0 = 0 := by
    have a : c0 + c3 * (g * g) = 0 := by linarith
    have b : c0 - c3 * (g * g) = 0 := by linarith
    linarith
  have k1 : c1 * g = 0 := by linarith
  have k2 : c2 * g = 0 := by linarith
  have k3 : c3 * (g * g) = 0 := by linarith
  exact ⟨k0, (mul_eq_zero.1 k1).resolve_right hg, (mul_eq_zero.1 k2).resolve_right hg,
    (mul_eq_zero.1 k3).resolve_right (mul_ne_zero hg hg)⟩

/-- The derivatives of a field on the reference cube. -/
theorem cube_modes (W : Matrix (Fin 8) (Fin 3) ℝ) : ∃ m100 m010 m001 m110 m101 m011 m111 : Fin 3 → ℝ,
    (∀ (r : Fin 3 → ℝ) j, (SF.cubic8.dNdr r * W) 0 j = m100 j + m110 j * r 1 + m101 j * r 2 + m111 j * (r 1 * r 2)) ∧
    (∀ (r : Fin 3 → ℝ) j, (SF.cubic8.dNdr r * W) 1 j = m010 j + m110 j * r 0 + m011 j * r 2 + m111 j * (r 0 * r 2)) ∧
    (∀ (r : Fin 3 → ℝ) j, (SF.cubic8.dNdr r * W) 2 j = m001 j + m101 j * r 0 + m011 j * r 1 + m111 j * (r 0 * r 1)) ∧
    ∀ j, m110 j = 0 → m101 j = 0 → m011 j = 0 → m111 j = 0 → ∀ i,
      W i j = W 0 j + 2 * (unitCube i 0 * m100 j + unitCube i 1 * m010 j + unitCube i 2 * m001 j) := by
  refine ⟨fun j => 1 / 8 * (-W 0 j + W 1 j + W 2 j - W 3 j - W 4 j + W 5 j + W 6 j - W 7 j),
    fun j => 1 / 8 * (-W 0 j - W 1 j + W 2 j + W 3 j - W 4 j - W 5 j + W 6 j + W 7 j),
    fun j => 1 / 8 * (-W 0 j - W 1 j - W 2 j - W 3 j + W 4 j + W 5 j + W 6 j + W 7 j),
    fun j => 1 / 8 * (W 0 j - W 1 j + W 2 j - W 3 j + W 4 j - W 5 j + W 6 j - W 7 j),
    fun j => 1 / 8 * (W 0 j - W 1 j - W 2 j + W 3 j - W 4 j + W 5 j + W 6 j - W 7 j),
    fun j => 1 / 8 * (W 0 j + W 1 j - W 2 j - W 3 j - W 4 j - W 5 j + W 6 j + W 7 j),
    fun j => 1 / 8 * (-W 0 j + W 1 j - W 2 j + W 3 j + W 4 j - W 5 j + W 6 j - W 7 j), ?_, ?_, ?_, ?_⟩
  · intro r j
    simp [Matrix.mul_apply, Fin.sum_univ_succ, SF.cubic8]
    ring
  · intro r j
    simp [Matrix.mul_apply, Fin.sum_univ_succ, SF.cubic8]
    ring
  · intro r j
    simp [Matrix.mul_apply, Fin.sum_univ_succ, SF.cubic8]
    ring
  · intro j k1 k2 k3 k4 i
    fin_cases i <;> simp [unitCube] <;> linarith

/-- On the reference cube a field whose gradient is antisymmetric at the eight integration points is a rigid motion. -/
theorem cube_antisymmetric (W : Matrix (Fin 8) (Fin 3) ℝ)
    (h : ∀ (g : Fin 8) (k l : Fin 3), (SF.cubic8.dNdr (IC.gauss8Cubic.points g) * W) k l +
      (SF.cubic8.dNdr (IC.gauss8Cubic.points g) * W) l k = 0) :
    ∃ (c : Fin 3 → ℝ) (S : Matrix (Fin 3) (Fin 3) ℝ), (∀ k l, S k l + S l k = 0) ∧
      ∀ i j, W i j = c j + (unitCube * S) i j := by
  obtain ⟨g, hg⟩ : ∃ g : ℝ, g = 1 / √3 := ⟨_, rfl⟩
  have hg0 : g ≠ 0 := by rw [hg]; positivity
  have hneg : (-1 / √3 : ℝ) = -g := by rw [hg]; ring
  obtain ⟨m100, m010, m001, m110, m101, m011, m111, d0, d1, d2, hexp⟩ := cube_modes W
  have p0 : IC.gauss8Cubic.points (0 : Fin 8) = ![-g, -g, -g] := by rw [← hneg]; first | rfl | (rw [hg]; rfl)
  have p1 : IC.gauss8Cubic.points (1 : Fin 8) = ![g, -g, -g] := by rw [← hneg]; first | rfl | (rw [hg]; rfl)
  have p2 : IC.gauss8Cubic.points (2 : Fin 8) = ![g, g, -g] := by rw [← hneg]; first | rfl | (rw [hg]; rfl)
  have p3 : IC.gauss8Cubic.points (3 : Fin 8) = ![-g, g, -g] := by rw [← hneg]; first | rfl | (rw [hg]; rfl)
  have p4 : IC.gauss8Cubic.points (4 : Fin 8) = ![-g, -g, g] := by rw [← hneg]; first | rfl | (rw [hg]; rfl)
  have p5 : IC.gauss8Cubic.points (5 : Fin 8) = ![g, -g, g] := by rw [← hneg]; first | rfl | (rw [hg]; rfl)
  have p6 : IC.gauss8Cubic.points (6 : Fin 8) = ![g, g, g] := by rw [hg]; rfl
  have p7 : IC.gauss8Cubic.points (7 : Fin 8) = ![-g, g, g] := by rw [← hneg]; first | rfl | (rw [hg]; rfl)
  -- normal strains
  obtain ⟨x1, x2, x3, x4⟩ : m100 0 = 0 ∧ m110 0 = 0 ∧ m101 0 = 0 ∧ m111 0 = 0 := by
    have a0 := h 0 0 0
    have a2 := h 2 0 0
    have a4 := h 4 0 0
    have a6 := h 6 0 0
    rw [p0, d0] at a0
    rw [p2, d0] at a2
    rw [p4, d0] at a4
    rw [p6, d0] at a6
    simp only [Matrix.cons_val_zero, Matrix.cons_val_one, Matrix.cons_val] at a0 a2 a4 a6
    exact bilinear_zero hg0 (by linarith) (by linarith) (by linarith) (by linarith)
  obtain ⟨y1, y2, y3, y4⟩ : m010 1 = 0 ∧ m110 1 = 0 ∧ m011 1 = 0 ∧ m111 1 = 0 := by
    have a0 := h 0 1 1
    have a2 := h 1 1 1
    have a4 := h 4 1 1
    have a6 := h 6 1 1
    rw [p0, d1] at a0
    rw [p1, d1] at a2
    rw [p4, d1] at a4
    rw [p6, d1] at a6
    simp only [Matrix.cons_val_zero, Matrix.cons_val_one, Matrix.cons_val] at a0 a2 a4 a6
    exact bilinear_zero hg0 (by linarith) (by linarith) (by linarith) (by linarith)
  obtain ⟨z1, z2, z3, z4⟩ : m001 2 = 0 ∧ m101 2 = 0 ∧ m011 2 = 0 ∧ m111 2 = 0 := by
    have a0 := h 0 2 2
    have a2 := h 1 2 2
    have a4 := h 3 2 2
    have a6 := h 2 2 2
    rw [p0, d2] at a0
    rw [p1, d2] at a2
    rw [p3, d2] at a4
    rw [p2, d2] at a6
    simp only [Matrix.cons_val_zero, Matrix.cons_val_one, Matrix.cons_val] at a0 a2 a4 a6
    exact bilinear_zero hg0 (by linarith) (by linarith) (by linarith) (by linarith)
  have two : ∀ {a b : ℝ}, a + b * g = 0 → a - b * g = 0 → a = 0 ∧ b = 0 := fun {a b} u v =>
    ⟨by linarith, (mul_eq_zero.1 (show b * g = 0 by linarith)).resolve_right hg0⟩
  -- shear strains
  obtain ⟨s1, s2⟩ : m010 0 + m100 1 = 0 ∧ m011 0 + m101 1 = 0 := by
    have a0 := h 0 0 1
    have a6 := h 6 0 1
    rw [p0, d0, d1] at a0
    rw [p6, d0, d1] at a6
    simp only [Matrix.cons_val_zero, Matrix.cons_val_one, Matrix.cons_val, x2, x4, y2, y4] at a0 a6
    exact two (by linarith) (by linarith)
  obtain ⟨s3, s4⟩ : m001 1 + m010 2 = 0 ∧ m101 1 + m110 2 = 0 := by
    have a0 := h 0 1 2
    have a6 := h 6 1 2
    rw [p0, d1, d2] at a0
    rw [p6, d1, d2] at a6
    simp only [Matrix.cons_val_zero, Matrix.cons_val_one, Matrix.cons_val, y3, y4, z3, z4] at a0 a6
    exact two (by linarith) (by linarith)
  obtain ⟨s5, s6⟩ : m001 0 + m100 2 = 0 ∧ m011 0 + m110 2 = 0 := by
    have a0 := h 0 0 2
    have a6 := h 6 0 2
    rw [p0, d0, d2] at a0
    rw [p6, d0, d2] at a6
    simp only [Matrix.cons_val_zero, Matrix.cons_val_one, Matrix.cons_val, x3, x4, z2, z4] at a0 a6
    exact two (by linarith) (by linarith)
  have t0 : m011 0 = 0 := by linarith
  have t1 : m101 1 = 0 := by linarith
  have t2 : m110 2 = 0 := by linarith
  have v110 : ∀ j, m110 j = 0 := fun j => by fin_cases j <;> assumption
  have v101 : ∀ j, m101 j = 0 := fun j => by fin_cases j <;> assumption
  have v011 : ∀ j, m011 j = 0 := fun j => by fin_cases j <;> assumption
  have v111 : ∀ j, m111 j = 0 := fun j => by fin_cases j <;> assumption
  refine ⟨fun j => W 0 j, Matrix.of fun k j => 2 * ![m100 j, m010 j, m001 j] k, ?_, ?_⟩
  · intro k l
    fin_cases k <;> fin_cases l <;>
      simp only [Matrix.of_apply, Fin.zero_eta, Fin.mk_one, Fin.reduceFinMk, Matrix.cons_val_zero, Matrix.cons_val_one,
        Matrix.cons_val, Fin.isValue] <;> linarith
  · intro i j
    rw [hexp j (v110 j) (v101 j) (v011 j) (v111 j) i]
    simp only [Matrix.mul_apply, Matrix.of_apply, Fin.sum_univ_three, Matrix.cons_val_zero, Matrix.cons_val_one, Matrix.cons_val]
    ring

/-- A field whose strain vanishes at the eight integration points of a parallelepiped is a rigid motion. -/
theorem brick_strain_zero {o : Fin 3 → ℝ} {A : Matrix (Fin 3) (Fin 3) ℝ} (hA : A.det ≠ 0) (u : Fin 8 × Fin 3 → ℝ)
    (h : ∀ g : Fin 8, strain3 (gradAt SF.cubic8 (brick o A) (IC.gauss8Cubic.points g)) u = 0) :
    ∃ a w, u = rigid3 (brick o A) a w := by
  set U : Matrix (Fin 8) (Fin 3) ℝ := fun i j => u (i, j) with hU
  have hu : IsUnit A.det := Ne.isUnit hA
  have hG : ∀ r, gradAt SF.cubic8 (brick o A) r * U = (2 : ℝ) • (A⁻¹ * (SF.cubic8.dNdr r * U)) := by
    intro r
    rw [gradAt, brick_jac, Matrix.mul_assoc]
    have : ((1 / 2 : ℝ) • A)⁻¹ = (2 : ℝ) • A⁻¹ := by
      refine Matrix.inv_eq_left_inv ?_
      rw [Matrix.smul_mul, Matrix.mul_smul, smul_smul, Matrix.nonsing_inv_mul _ hu]
      norm_num
    rw [this, Matrix.smul_mul]
  have hskew : ∀ (g : Fin 8) (k l : Fin 3), (SF.cubic8.dNdr (IC.gauss8Cubic.points g) * (U * Aᵀ)) k l +
      (SF.cubic8.dNdr (IC.gauss8Cubic.points g) * (U * Aᵀ)) l k = 0 := by
    intro g k l
    set G := gradAt SF.cubic8 (brick o A) (IC.gauss8Cubic.points g) with hGd
    have hs := h g
    rw [← hGd] at hs
    have hGU : ∀ k l, (G * U) k l = ∑ i, G k i * u (i, l) := fun k l => rfl
    have hGs : (G * U) + (G * U)ᵀ = 0 := by
      ext a b
      have q0 := congrFun hs 0
      have q1 := congrFun hs 1
      have q2 := congrFun hs 2
      have q3 := congrFun hs 3
      have q4 := congrFun hs 4
      have q5 := congrFun hs 5
      simp only [strain3, Matrix.cons_val_zero, Matrix.cons_val_one, Matrix.cons_val, ← hGU, Pi.zero_apply] at q0 q1 q2 q3 q4 q5
      simp only [Matrix.add_apply, Matrix.transpose_apply, Matrix.zero_apply]
      fin_cases a <;> fin_cases b <;> simp only [Fin.mk_zero, Fin.mk_one, Fin.reduceFinMk, Fin.zero_eta, Fin.isValue] <;> linarith
    have e1 : SF.cubic8.dNdr (IC.gauss8Cubic.points g) * (U * Aᵀ) = (1 / 2 : ℝ) • (A * (G * U) * Aᵀ) := by
      rw [hGd, hG, Matrix.mul_smul, Matrix.smul_mul, smul_smul, ← Matrix.mul_assoc A, Matrix.mul_nonsing_inv _ hu,
        Matrix.one_mul, Matrix.mul_assoc]
      norm_num
    have e2 : A * (G * U) * Aᵀ + (A * (G * U) * Aᵀ)ᵀ = 0 := by
      rw [Matrix.transpose_mul, Matrix.transpose_mul, Matrix.transpose_transpose, ← Matrix.mul_assoc A (_)ᵀ,
        ← Matrix.add_mul, ← Matrix.mul_add, hGs]
      simp
    have := congrFun (congrFun e2 k) l
    rw [e1]
    simp only [Matrix.add_apply, Matrix.transpose_apply, Matrix.zero_apply] at this
    simp only [Matrix.smul_apply, smul_eq_mul]
    linarith
  obtain ⟨c, S, hS, hW⟩ := cube_antisymmetric _ hskew
  obtain ⟨Y, hY⟩ : ∃ Y : Matrix (Fin 8) (Fin 3) ℝ, ∀ i j, Y i j = brick o A i j - o j := ⟨_, fun _ _ => rfl⟩
  obtain ⟨Cc, hCc⟩ : ∃ Y : Matrix (Fin 8) (Fin 3) ℝ, ∀ i j, Y i j = c j := ⟨fun _ j => c j, fun _ _ => rfl⟩
  have hC : unitCube = Y * A⁻¹ := by
    have : Y = unitCube * A := by
      ext i j; rw [hY]; simp [brick]
    rw [this, Matrix.mul_assoc, Matrix.mul_nonsing_inv _ hu, Matrix.mul_one]
  set T := A⁻¹ * S * (A⁻¹)ᵀ with hT
  have hTs : ∀ k l, T k l = - T l k := by
    have hS' : S + Sᵀ = 0 := by ext k l; exact hS k l
    have : T + Tᵀ = 0 := by
      rw [hT, Matrix.transpose_mul, Matrix.transpose_mul, Matrix.transpose_transpose, ← Matrix.mul_assoc,
        ← Matrix.add_mul, ← Matrix.mul_add, hS']
      simp
    intro k l
    have := congrFun (congrFun this k) l
    simp only [Matrix.add_apply, Matrix.transpose_apply, Matrix.zero_apply] at this
    linarith
  have hUT : U = Cc * (A⁻¹)ᵀ + Y * T := by
    have e : U * Aᵀ = Cc + unitCube * S := by
      ext i j; rw [hW, Matrix.add_apply, hCc]
    have : U = (U * Aᵀ) * (A⁻¹)ᵀ := by
      rw [Matrix.mul_assoc, ← Matrix.transpose_mul, Matrix.nonsing_inv_mul _ hu, Matrix.transpose_one, Matrix.mul_one]
    rw [this, e, Matrix.add_mul, hC, hT]
    simp only [Matrix.mul_assoc]
  set b : Fin 3 → ℝ := fun j => ∑ k, c k * (A⁻¹)ᵀ k j with hb
  have hUij : ∀ i j, u (i, j) = b j + ∑ k, (brick o A i k - o k) * T k j := by
    intro i j
    have := congrFun (congrFun hUT i) j
    simp only [Matrix.add_apply, Matrix.mul_apply, hCc, hY] at this
    exact this
  refine ⟨fun j => b j - ∑ k, o k * T k j, ![T 1 2, T 2 0, T 0 1], ?_⟩
  funext p
  obtain ⟨i, j⟩ := p
  have t00 := hTs 0 0
  have t11 := hTs 1 1
  have t22 := hTs 2 2
  have t10 := hTs 1 0
  have t21 := hTs 2 1
  have t02 := hTs 0 2
  have t00' : T 0 0 = 0 := by linarith
  have t11' : T 1 1 = 0 := by linarith
  have t22' : T 2 2 = 0 := by linarith
  rw [hUij]
  simp only [rigid3, Fin.sum_univ_three]
  fin_cases j
  · simp [t00', t10]; ring
  · simp [t11', t21]; ring
  · simp [t22', t02]; ring

/-- No strain energy, no strain. -/
theorem solid_zero_energy {n : ℕ} {sf : SF ℝ 3 n} {ic : IC ℝ 3} {X : Matrix (Fin n) (Fin 3) ℝ} {E V : ℝ}
    (hm : ∀ g, 0 < measure3 sf ic X g) (hE : 0 < E) (h1 : -1 < V) (h2 : 2 * V < 1)
    {Ke : Matrix (Fin n × Fin 3) (Fin n × Fin 3) ℝ} (h : solidStiffness sf ic X E V = some Ke)
    {u : Fin n × Fin 3 → ℝ} (hu : u ⬝ᵥ (Ke *ᵥ u) = 0) (g : Fin ic.N) :
    strain3 (gradAt sf X (ic.points g)) u = 0 := by
  obtain ⟨D, hD, -, rfl⟩ := solidStiffness_eq_some.1 h
  have hpsd := nonnegForm_solidC hE.le h1 h2 hD
  rw [dot_sum_congr_transform, Finset.sum_eq_zero_iff_of_nonneg
    fun g _ => mul_nonneg (hm g).le (hpsd _)] at hu
  have h0 := (mul_eq_zero.1 (hu g (Finset.mem_univ g))).resolve_left (hm g).ne'
  rw [(solidC_eq_some.1 hD).2, Matrix.smul_mulVec, dotProduct_smul, form_solidC0,
    smul_eq_mul, solidB_mulVec] at h0
  have a1 : 0 < 1 - 2 * V := by linarith
  have a2 : 0 < 1 + V := by linarith
  have h3 := (mul_eq_zero.1 h0).resolve_left (div_pos hE (mul_pos a2 a1)).ne'
  generalize strain3 (gradAt sf X (ic.points g)) u = e at h3 ⊢
  have b1 : 0 ≤ (1 + V) * (e 0 + e 1 + e 2) ^ 2 := by positivity
  have b2 : 0 ≤ (1 - 2 * V) * (e 0 - e 1) ^ 2 := by positivity
  have b3 : 0 ≤ (1 - 2 * V) * (e 1 - e 2) ^ 2 := by positivity
  have b4 : 0 ≤ (1 - 2 * V) * (e 2 - e 0) ^ 2 := by positivity
  have b5 : 0 ≤ (1 - 2 * V) * e 3 ^ 2 := by positivity
  have b6 : 0 ≤ (1 - 2 * V) * e 4 ^ 2 := by positivity
  have b7 : 0 ≤ (1 - 2 * V) * e 5 ^ 2 := by positivity
  have sq : ∀ {c x : ℝ}, 0 < c → c * x ^ 2 = 0 → x = 0 := fun hc hx => by
    simpa [hc.ne'] using hx
  have c1 := sq a2 (show (1 + V) * (e 0 + e 1 + e 2) ^ 2 = 0 by linarith)
  have c2 := sq a1 (show (1 - 2 * V) * (e 0 - e 1) ^ 2 = 0 by linarith)
  have c3 := sq a1 (show (1 - 2 * V) * (e 1 - e 2) ^ 2 = 0 by linarith)
  have c5 := sq a1 (show (1 - 2 * V) * e 3 ^ 2 = 0 by linarith)
  have c6 := sq a1 (show (1 - 2 * V) * e 4 ^ 2 = 0 by linarith)
  have c7 := sq a1 (show (1 - 2 * V) * e 5 ^ 2 = 0 by linarith)
  clear b1 b2 b3 b4 b5 b6 b7 h3 h0 hu
  ext q
  fin_cases q <;> simp only [Fin.zero_eta, Fin.mk_one, Fin.reduceFinMk, Pi.zero_apply] <;> linarith

end Pansfem
