/-
The driven cavity on a grid: where values are given, velocities without gradient, pressures that do no work, and the flow of the
given values.
-/
import Verif.Lemmas.Cavity8

noncomputable section

open Matrix

namespace Pansfem

/-- `w` vanishes where values are given. -/
theorem vanishing_last {bc : List ((ℕ × ℕ) × ℝ)} {w : ℕ → ℕ → ℝ} :
    Vanishing bc w ↔ ∀ a d c, lastValue bc a d = some c → w a d = 0 := by
  refine ⟨fun h a d c hc => ?_, fun h r hr => ?_⟩
  · obtain ⟨r, hr, e⟩ := mem_of_lastValue hc
    have := h r hr
    rwa [e] at this
  · obtain ⟨s, -, -, hs⟩ := lastValue_of_key hr
    exact h _ _ _ hs

theorem unitField_vanishing {bc : List ((ℕ × ℕ) × ℝ)} {a d : ℕ} (h : lastValue bc a d = none) : Vanishing bc (unitField a d) :=
  vanishing_last.2 fun a' d' c hc => if_neg fun ⟨h1, h2⟩ => by
    rw [h1, h2, h] at hc
    exact absurd hc (by simp)

/-- A velocity without gradient at the integration points is constant on the cell. -/
theorem square8_constant {v : Fin 8 → ℝ} (h : ∀ g : Fin 9, ∀ k, ∑ l, SF.square8.dNdr (IC.gauss9Square.points g) k l * v l = 0)
    (l : Fin 8) : v l = v 0 := by
  have hs : √(3 / 5 : ℝ) ≠ 0 := by positivity
  have hr : ∀ g : Fin 9, (IC.gauss9Square : IC ℝ 2).points g = ![(IC.gauss9Square : IC ℝ 2).points g 0, IC.gauss9Square.points g 1] := by
    intro g
    ext k
    fin_cases k <;> rfl
  have hp : ∀ g : Fin 9, ∑ l, SF.square8.dNdr ![(IC.gauss9Square : IC ℝ 2).points g 0, IC.gauss9Square.points g 1] 0 l * v l = 0 :=
    fun g => by rw [← hr]; exact h g 0
  have hq : ∀ g : Fin 9, ∑ l, SF.square8.dNdr ![(IC.gauss9Square : IC ℝ 2).points g 0, IC.gauss9Square.points g 1] 1 l * v l = 0 :=
    fun g => by rw [← hr]; exact h g 1
  have c0 := biquad_zero hs (c := ![![serendipity v 1 0, serendipity v 1 1, serendipity v 1 2],
      ![2 * serendipity v 2 0, 2 * serendipity v 2 1, 0], ![0, 0, 0]]) (by
    intro p hp' q hq'
    have := gauss9_grid (P := fun p q => ∑ l, SF.square8.dNdr ![p, q] 0 l * v l = 0) hp p hp' q hq'
    rw [square8_dp] at this
    simp only [cons_val_zero, cons_val_one, cons_val]
    linarith)
  have c1 := biquad_zero hs (c := ![![serendipity v 0 1, 2 * serendipity v 0 2, 0],
      ![serendipity v 1 1, 2 * serendipity v 1 2, 0], ![serendipity v 2 1, 0, 0]]) (by
    intro p hp' q hq'
    have := gauss9_grid (P := fun p q => ∑ l, SF.square8.dNdr ![p, q] 1 l * v l = 0) hq p hp' q hq'
    rw [square8_dq] at this
    simp only [cons_val_zero, cons_val_one, cons_val]
    linarith)
  have s10 : serendipity v 1 0 = 0 := c0 0 0
  have s11 : serendipity v 1 1 = 0 := c0 0 1
  have s12 : serendipity v 1 2 = 0 := c0 0 2
  have s20 : serendipity v 2 0 = 0 := by
    have : 2 * serendipity v 2 0 = 0 := c0 1 0
    linarith
  have s21 : serendipity v 2 1 = 0 := c1 2 0
  have s01 : serendipity v 0 1 = 0 := c1 0 0
  have s02 : serendipity v 0 2 = 0 := by
    have : 2 * serendipity v 0 2 = 0 := c1 0 1
    linarith
  have s22 : serendipity v 2 2 = 0 := rfl
  rw [square8_nodes v l, square8_nodes v 0, s10, s11, s12, s20, s21, s01, s02, s22]
  ring

/-! ### Numbers of the nodes -/

section
variable {nx ny i j i' j' : ℕ}

theorem corner_upright (hi : i ≤ nx) (hj : j ≤ ny) : cornerNo ny i j ≠ uprightNo nx ny i' j' := by
  have := row_lt (show i < nx + 1 by omega) (show j < ny + 1 by omega)
  unfold cornerNo uprightNo
  omega

theorem corner_level (hi : i ≤ nx) (hj : j ≤ ny) : cornerNo ny i j ≠ levelNo nx ny i' j' := by
  have := row_lt (show i < nx + 1 by omega) (show j < ny + 1 by omega)
  have h2 : (nx + 1) * (2 * ny + 1) = (nx + 1) * (ny + 1) + (nx + 1) * ny := by ring
  unfold cornerNo levelNo
  omega

theorem upright_level (hi : i ≤ nx) (hj : j < ny) : uprightNo nx ny i j ≠ levelNo nx ny i' j' := by
  have := row_lt (show i < nx + 1 by omega) hj
  have h2 : (nx + 1) * (2 * ny + 1) = (nx + 1) * (ny + 1) + (nx + 1) * ny := by ring
  unfold uprightNo levelNo
  omega

theorem level_inj (hj : j ≤ ny) (hj' : j' ≤ ny) : levelNo nx ny i j = levelNo nx ny i' j' ↔ i = i' ∧ j = j' := by
  refine ⟨fun h => row_inj (n := ny + 1) (by omega) (by omega) ?_, fun h => by rw [h.1, h.2]⟩
  unfold levelNo at h
  omega

theorem upright_inj (hj : j < ny) (hj' : j' < ny) : uprightNo nx ny i j = uprightNo nx ny i' j' ↔ i = i' ∧ j = j' := by
  refine ⟨fun h => row_inj hj hj' ?_, fun h => by rw [h.1, h.2]⟩
  unfold uprightNo at h
  omega

end

namespace Cavity8
variable {nx ny : ℕ} {value : ℝ} {x : List (Vec ℝ)} {elements : List (List ℕ × List ℕ)} {bc : List ((ℕ × ℕ) × ℝ)}

/-! ### Where values are given -/

theorem given_corner (h : Cavity8 nx ny value x elements bc) (hx : 0 < nx) (hy : 0 < ny) {i j : ℕ} (hi : i ≤ nx) (hj : j ≤ ny) (d : ℕ) :
    lastValue bc (cornerNo ny i j) d = if d = 0 ∧ j = ny then some value
      else if d < 2 ∧ (i = 0 ∨ i = nx ∨ j = 0 ∨ j = ny) then some 0 else none := by
  have h1 : (nx : ℝ) ≠ 0 := by exact_mod_cast hx.ne'
  have h2 : (ny : ℝ) ≠ 0 := by exact_mod_cast hy.ne'
  rw [h.given, h.corner i hi j hj]
  simp only [Option.bind_some, div_eq_one_iff_eq h1, div_eq_one_iff_eq h2, div_eq_zero_iff, h1, h2, or_false, Nat.cast_inj,
    Nat.cast_eq_zero]

theorem given_upright (h : Cavity8 nx ny value x elements bc) (hx : 0 < nx) (hy : 0 < ny) {i j : ℕ} (hi : i ≤ nx) (hj : j < ny) (d : ℕ) :
    lastValue bc (uprightNo nx ny i j) d = if d < 2 ∧ (i = 0 ∨ i = nx) then some 0 else none := by
  have h1 : (nx : ℝ) ≠ 0 := by exact_mod_cast hx.ne'
  have h2 : (ny : ℝ) ≠ 0 := by exact_mod_cast hy.ne'
  have h3 : ((j : ℝ) + 1 / 2) ≠ ny := fun hc => by
    have : ((2 * j + 1 : ℕ) : ℝ) = (2 * ny : ℕ) := by push_cast; linarith
    have := Nat.cast_injective this
    omega
  have h4 : ((j : ℝ) + 1 / 2) ≠ 0 := by positivity
  rw [h.given, h.upright i hi j hj]
  simp only [Option.bind_some, div_eq_one_iff_eq h1, div_eq_one_iff_eq h2, div_eq_zero_iff, h1, h2, h3, h4, or_false, Nat.cast_inj,
    Nat.cast_eq_zero, and_false, if_false]

theorem given_level (h : Cavity8 nx ny value x elements bc) (hx : 0 < nx) (hy : 0 < ny) {i j : ℕ} (hi : i < nx) (hj : j ≤ ny) (d : ℕ) :
    lastValue bc (levelNo nx ny i j) d = if d = 0 ∧ j = ny then some value
      else if d < 2 ∧ (j = 0 ∨ j = ny) then some 0 else none := by
  have h1 : (nx : ℝ) ≠ 0 := by exact_mod_cast hx.ne'
  have h2 : (ny : ℝ) ≠ 0 := by exact_mod_cast hy.ne'
  have h3 : ((i : ℝ) + 1 / 2) ≠ nx := fun hc => by
    have : ((2 * i + 1 : ℕ) : ℝ) = (2 * nx : ℕ) := by push_cast; linarith
    have := Nat.cast_injective this
    omega
  have h4 : ((i : ℝ) + 1 / 2) ≠ 0 := by positivity
  rw [h.given, h.level i hi j hj]
  simp only [Option.bind_some, div_eq_one_iff_eq h1, div_eq_one_iff_eq h2, div_eq_zero_iff, h1, h2, h3, h4, or_false, Nat.cast_inj,
    Nat.cast_eq_zero, false_or]

theorem given_press (h : Cavity8 nx ny value x elements bc) {a d : ℕ} (hd : 2 ≤ d) : lastValue bc a d = none := by
  rw [h.given]
  cases hx : x[a]? with
  | none => rfl
  | some p =>
    have h0 : d ≠ 0 := by omega
    have h2 : ¬ d < 2 := by omega
    rw [Option.bind_some]
    split
    · simp [h0, h2]
    · rfl

theorem valid (h : Cavity8 nx ny value x elements bc) : (steadyMesh x elements).Valid := by
  have lt : ∀ {a : ℕ} {p : Vec ℝ}, x[a]? = some p → a < x.length := fun hp => (List.getElem?_eq_some_iff.1 hp).1
  refine ⟨fun e he => ?_, fun e he => ?_, fun e he a ha => ?_, fun e he a ha => ?_, fun a ha k hk => ?_, fun e he g => ?_⟩
  · obtain ⟨i, -, j, -, rfl⟩ := h.mem.1 he
    rfl
  · obtain ⟨i, -, j, -, rfl⟩ := h.mem.1 he
    rfl
  · obtain ⟨i, hi, j, hj, rfl⟩ := h.mem.1 he
    show a < x.length
    simp only [cell8, List.mem_cons, List.not_mem_nil, or_false] at ha
    rcases ha with rfl | rfl | rfl | rfl | rfl | rfl | rfl | rfl
    · exact lt (h.corner i hi.le j hj.le)
    · exact lt (h.corner (i + 1) hi j hj.le)
    · exact lt (h.corner (i + 1) hi (j + 1) hj)
    · exact lt (h.corner i hi.le (j + 1) hj)
    · exact lt (h.level i hi j hj.le)
    · exact lt (h.upright (i + 1) hi j hj)
    · exact lt (h.level i hi (j + 1) hj)
    · exact lt (h.upright i hi.le j hj)
  · obtain ⟨i, hi, j, hj, rfl⟩ := h.mem.1 he
    show a < x.length
    simp only [cell8, List.mem_cons, List.not_mem_nil, or_false] at ha
    rcases ha with rfl | rfl | rfl | rfl
    · exact lt (h.corner i hi.le j hj.le)
    · exact lt (h.corner (i + 1) hi j hj.le)
    · exact lt (h.corner (i + 1) hi (j + 1) hj)
    · exact lt (h.corner i hi.le (j + 1) hj)
  · have ha : a < x.length := ha
    have key : ∃ p q : ℝ, x[a]? = some ⟨[p, q]⟩ := by
      rw [h.size] at ha
      have h2 : (nx + 1) * (2 * ny + 1) = (nx + 1) * (ny + 1) + (nx + 1) * ny := by ring
      by_cases h0 : a < (nx + 1) * (ny + 1)
      · have e1 : a / (ny + 1) < nx + 1 := Nat.div_lt_of_lt_mul (by rw [mul_comm]; exact h0)
        have e2 : a % (ny + 1) < ny + 1 := Nat.mod_lt _ (by omega)
        have := h.corner _ (show a / (ny + 1) ≤ nx by omega) _ (show a % (ny + 1) ≤ ny by omega)
        rw [show cornerNo ny (a / (ny + 1)) (a % (ny + 1)) = a from Nat.div_add_mod a (ny + 1)] at this
        exact ⟨_, _, this⟩
      · by_cases h1 : a < (nx + 1) * (2 * ny + 1)
        · obtain ⟨b, rfl⟩ : ∃ b, a = b + (nx + 1) * (ny + 1) := ⟨a - (nx + 1) * (ny + 1), by omega⟩
          have hb : b < (nx + 1) * ny := by omega
          have hn : 0 < ny := by
            rcases Nat.eq_zero_or_pos ny with rfl | hn
            · simp at hb
            · exact hn
          have e1 : b / ny < nx + 1 := Nat.div_lt_of_lt_mul (by rw [mul_comm]; exact hb)
          have e2 : b % ny < ny := Nat.mod_lt _ hn
          have := h.upright _ (show b / ny ≤ nx by omega) _ e2
          rw [uprightNo, Nat.div_add_mod b ny] at this
          exact ⟨_, _, this⟩
        · obtain ⟨b, rfl⟩ : ∃ b, a = b + (nx + 1) * (2 * ny + 1) := ⟨a - (nx + 1) * (2 * ny + 1), by omega⟩
          have hb : b < nx * (ny + 1) := by omega
          have e1 : b / (ny + 1) < nx := Nat.div_lt_of_lt_mul (by rw [mul_comm]; exact hb)
          have e2 : b % (ny + 1) < ny + 1 := Nat.mod_lt _ (by omega)
          have := h.level _ e1 _ (show b % (ny + 1) ≤ ny by omega)
          rw [levelNo, Nat.div_add_mod b (ny + 1)] at this
          exact ⟨_, _, this⟩
    obtain ⟨p, q, hp⟩ := key
    show (nodal x a k).isSome
    rw [nodal, hp]
    interval_cases k <;> rfl
  · intro h0
    have := h.positive e he g
    unfold measure2 at this
    rw [h0, zero_mul, zero_mul] at this
    exact lt_irrefl _ this

/-! ### Velocities without gradient -/

theorem rest (h : Cavity8 nx ny value x elements bc) (hx : 0 < nx) (hy : 0 < ny) {w : ℕ → ℕ → ℝ} (hw : Vanishing bc w)
    (hd : ∀ e ∈ elements, ∀ g, ∀ k a : Fin 2, (steadyMesh x elements).dvel e w g k a = 0) :
    ∀ e ∈ elements, ∀ l : Fin 8, ∀ a < 2, w (e.1[(l : ℕ)]?.getD 0) a = 0 := by
  have h1 : (2 * (nx : ℝ)) ≠ 0 := by positivity
  have h2 : (2 * (ny : ℝ)) ≠ 0 := by positivity
  have const : ∀ i < nx, ∀ j < ny, ∀ a < 2, ∀ l, cellVel nx ny i j w a l = cellVel nx ny i j w a 0 := by
    intro i hi j hj a ha l
    refine square8_constant (fun g k => ?_) l
    have hc := h.dvel hi hj w g a
    have hz := fun k => hd _ (h.mem.2 ⟨i, hi, j, hj, rfl⟩) g k ⟨a, ha⟩
    match k with
    | 0 => exact (mul_eq_zero.1 (hc.1.symm.trans (hz 0))).resolve_left h1
    | 1 => exact (mul_eq_zero.1 (hc.2.symm.trans (hz 1))).resolve_left h2
  have side : ∀ i ≤ nx, ∀ j ≤ ny, (i = 0 ∨ i = nx ∨ j = 0 ∨ j = ny) → ∀ a < 2, w (cornerNo ny i j) a = 0 := by
    intro i hi j hj hb a ha
    have := h.given_corner hx hy hi hj a
    by_cases hc : a = 0 ∧ j = ny
    · rw [if_pos hc] at this
      exact vanishing_last.1 hw _ _ _ this
    · rw [if_neg hc, if_pos ⟨ha, hb⟩] at this
      exact vanishing_last.1 hw _ _ _ this
  have corner : ∀ i ≤ nx, ∀ j ≤ ny, ∀ a < 2, w (cornerNo ny i j) a = 0 := by
    intro i
    induction i with
    | zero => exact fun hi j hj a ha => side 0 hi j hj (.inl rfl) a ha
    | succ i ih =>
      intro hi j hj a ha
      by_cases hjn : j = ny
      · exact side (i + 1) hi j hj (.inr (.inr (.inr hjn))) a ha
      · exact (const i hi j (by omega) a ha 1).trans (ih (by omega) j hj a ha)
  intro e he l a ha
  obtain ⟨i, hi, j, hj, rfl⟩ := h.mem.1 he
  have := congrFun (cell8_vel nx ny i j w a) l
  exact this.trans ((const i hi j hj a ha l).trans (corner i hi.le j hj.le a ha))

/-- The velocities that do no viscous work are zero. -/
theorem rest_laplace (h : Cavity8 nx ny value x elements bc) (hx : 0 < nx) (hy : 0 < ny) {mu : ℝ} (hmu : 0 < mu) {w : ℕ → ℕ → ℝ}
    (hw : Vanishing bc w) (h0 : (steadyMesh x elements).laplace mu w w = 0) :
    ∀ e ∈ elements, ∀ l : Fin 8, ∀ a < 2, w (e.1[(l : ℕ)]?.getD 0) a = 0 := by
  refine h.rest hx hy hw fun e he g k a => ?_
  have l3 := FlowMesh.integral_eq_zero h.positive (fun e _ g => mul_nonneg hmu.le
    (add_nonneg (Finset.sum_nonneg fun a _ => Finset.sum_nonneg fun k _ => mul_self_nonneg _) (mul_self_nonneg _))) h0.le e he g
  have e5 := (mul_eq_zero.1 l3).resolve_left hmu.ne'
  have n1 : 0 ≤ ∑ a : Fin 2, ∑ k : Fin 2, (steadyMesh x elements).dvel e w g k a * (steadyMesh x elements).dvel e w g k a :=
    Finset.sum_nonneg fun a _ => Finset.sum_nonneg fun k _ => mul_self_nonneg _
  have n2 := mul_self_nonneg (∑ k : Fin 2, (steadyMesh x elements).dvel e w g k k)
  have e6 : ∑ a : Fin 2, ∑ k : Fin 2, (steadyMesh x elements).dvel e w g k a * (steadyMesh x elements).dvel e w g k a = 0 := by
    linarith
  have e7 := (Finset.sum_eq_zero_iff_of_nonneg fun a _ => Finset.sum_nonneg fun k _ => mul_self_nonneg _).1 e6 a (Finset.mem_univ _)
  have e8 := (Finset.sum_eq_zero_iff_of_nonneg fun k _ => mul_self_nonneg _).1 e7 k (Finset.mem_univ _)
  exact mul_self_eq_zero.1 e8

/-! ### The flow of the given values -/

/-- The given values have no divergence. -/
theorem lid_expand (h : Cavity8 nx ny value x elements bc) (hx : 0 < nx) (hy : 0 < ny) (q : ℕ → ℕ → ℝ) {u : ℕ → ℕ → ℝ}
    (hu : ∀ a < x.length, ∀ d < 2, u a d = (lastValue bc a d).getD 0) : (steadyMesh x elements).expand q u = 0 := by
  have lt : ∀ {a : ℕ} {p : Vec ℝ}, x[a]? = some p → a < x.length := fun hp => (List.getElem?_eq_some_iff.1 hp).1
  have c0 : ∀ i ≤ nx, ∀ j ≤ ny, u (cornerNo ny i j) 0 = if j = ny then value else 0 := fun i hi j hj => by
    rw [hu _ (lt (h.corner i hi j hj)) 0 (by norm_num), h.given_corner hx hy hi hj]
    by_cases hc : j = ny
    · simp [hc]
    · simp only [hc, and_false, if_false]
      split_ifs <;> rfl
  have c1 : ∀ i ≤ nx, ∀ j ≤ ny, u (cornerNo ny i j) 1 = 0 := fun i hi j hj => by
    rw [hu _ (lt (h.corner i hi j hj)) 1 (by norm_num), h.given_corner hx hy hi hj, if_neg (by simp)]
    split_ifs <;> rfl
  have v0 : ∀ i ≤ nx, ∀ j < ny, ∀ d < 2, u (uprightNo nx ny i j) d = 0 := fun i hi j hj d hd => by
    rw [hu _ (lt (h.upright i hi j hj)) d hd, h.given_upright hx hy hi hj]
    split_ifs <;> rfl
  have l0 : ∀ i < nx, ∀ j ≤ ny, u (levelNo nx ny i j) 0 = if j = ny then value else 0 := fun i hi j hj => by
    rw [hu _ (lt (h.level i hi j hj)) 0 (by norm_num), h.given_level hx hy hi hj]
    by_cases hc : j = ny
    · simp [hc]
    · simp only [hc, and_false, if_false]
      split_ifs <;> rfl
  have l1 : ∀ i < nx, ∀ j ≤ ny, u (levelNo nx ny i j) 1 = 0 := fun i hi j hj => by
    rw [hu _ (lt (h.level i hi j hj)) 1 (by norm_num), h.given_level hx hy hi hj, if_neg (by simp)]
    split_ifs <;> rfl
  rw [h.expand]
  refine Finset.sum_eq_zero fun i hi => Finset.sum_eq_zero fun j hj => ?_
  have hi := Finset.mem_range.1 hi
  have hj := Finset.mem_range.1 hj
  have e0 : ∃ s t : ℝ, cellVel nx ny i j u 0 = ![s, s, t, t, s, 0, t, 0] := by
    refine ⟨if j = ny then value else 0, if j + 1 = ny then value else 0, ?_⟩
    unfold cellVel
    rw [c0 i hi.le j hj.le, c0 (i + 1) hi j hj.le, c0 (i + 1) hi (j + 1) hj, c0 i hi.le (j + 1) hj, l0 i hi j hj.le,
      l0 i hi (j + 1) hj, v0 i hi.le j hj 0 (by norm_num), v0 (i + 1) hi j hj 0 (by norm_num)]
  have e1 : cellVel nx ny i j u 1 = 0 := by
    unfold cellVel
    rw [c1 i hi.le j hj.le, c1 (i + 1) hi j hj.le, c1 (i + 1) hi (j + 1) hj, c1 i hi.le (j + 1) hj, l1 i hi j hj.le,
      l1 i hi (j + 1) hj, v0 i hi.le j hj 1 (by norm_num), v0 (i + 1) hi j hj 1 (by norm_num)]
    funext l
    fin_cases l <;> rfl
  obtain ⟨s, t, e0⟩ := e0
  have f0 : fluxU (cellPres ny i j q) (cellVel nx ny i j u 0) = 0 := by
    rw [e0]
    simp [fluxU, serendipity]
    ring
  have f1 : fluxV (cellPres ny i j q) (cellVel nx ny i j u 1) = 0 := by
    rw [e1]
    simp [fluxV, serendipity]
  rw [f0, f1, zero_div, zero_div, add_zero]

/-! ### Pressures that do no work -/

/-- A constant pressure does no work on velocities that vanish where values are given. -/
theorem level_expand (h : Cavity8 nx ny value x elements bc) (hx : 0 < nx) (hy : 0 < ny) {w : ℕ → ℕ → ℝ} (hw : Vanishing bc w) :
    (steadyMesh x elements).expand levelField w = 0 := by
  have side : ∀ i ≤ nx, ∀ j ≤ ny, (i = 0 ∨ i = nx ∨ j = 0 ∨ j = ny) → ∀ a < 2, w (cornerNo ny i j) a = 0 := by
    intro i hi j hj hb a ha
    have := h.given_corner hx hy hi hj a
    by_cases hc : a = 0 ∧ j = ny
    · rw [if_pos hc] at this
      exact vanishing_last.1 hw _ _ _ this
    · rw [if_neg hc, if_pos ⟨ha, hb⟩] at this
      exact vanishing_last.1 hw _ _ _ this
  have vert : ∀ i ≤ nx, ∀ j < ny, (i = 0 ∨ i = nx) → ∀ a < 2, w (uprightNo nx ny i j) a = 0 := by
    intro i hi j hj hb a ha
    have := h.given_upright hx hy hi hj a
    rw [if_pos ⟨ha, hb⟩] at this
    exact vanishing_last.1 hw _ _ _ this
  have hori : ∀ i < nx, ∀ j ≤ ny, (j = 0 ∨ j = ny) → ∀ a < 2, w (levelNo nx ny i j) a = 0 := by
    intro i hi j hj hb a ha
    have := h.given_level hx hy hi hj a
    by_cases hc : a = 0 ∧ j = ny
    · rw [if_pos hc] at this
      exact vanishing_last.1 hw _ _ _ this
    · rw [if_neg hc, if_pos ⟨ha, hb⟩] at this
      exact vanishing_last.1 hw _ _ _ this
  obtain ⟨R, hR⟩ : ∃ R : ℕ → ℕ → ℝ, R = fun i j => (w (cornerNo ny i j) 0 + 4 * w (uprightNo nx ny i j) 0 +
    w (cornerNo ny i (j + 1)) 0) / (6 * ny) := ⟨_, rfl⟩
  obtain ⟨T, hT⟩ : ∃ T : ℕ → ℕ → ℝ, T = fun i j => (w (cornerNo ny i j) 1 + 4 * w (levelNo nx ny i j) 1 +
    w (cornerNo ny (i + 1) j) 1) / (6 * nx) := ⟨_, rfl⟩
  have e : ∀ i ∈ Finset.range nx, ∀ j ∈ Finset.range ny,
      fluxU (cellPres ny i j levelField) (cellVel nx ny i j w 0) / (2 * ny) +
        fluxV (cellPres ny i j levelField) (cellVel nx ny i j w 1) / (2 * nx) =
      (R (i + 1) j - R i j) + (T i (j + 1) - T i j) := by
    intro i hi j hj
    have hp : cellPres ny i j levelField = ![1, 1, 1, 1] := by
      funext l
      fin_cases l <;> rfl
    have h1 : (nx : ℝ) ≠ 0 := by exact_mod_cast hx.ne'
    have h2 : (ny : ℝ) ≠ 0 := by exact_mod_cast hy.ne'
    rw [hp, hR, hT]
    simp only [fluxU, fluxV, serendipity, bilinear4, cellVel, cons_val_zero, cons_val_one, cons_val]
    field_simp
    ring
  rw [h.expand, Finset.sum_congr rfl fun i hi => Finset.sum_congr rfl fun j hj => e i hi j hj]
  simp only [Finset.sum_add_distrib]
  rw [Finset.sum_comm]
  have s1 : ∀ j ∈ Finset.range ny, ∑ i ∈ Finset.range nx, (R (i + 1) j - R i j) = 0 := fun j hj => by
    have hj := Finset.mem_range.1 hj
    rw [Finset.sum_range_sub fun i => R i j]
    simp only [hR]
    rw [side nx le_rfl j hj.le (.inr (.inl rfl)) 0 (by norm_num), side nx le_rfl (j + 1) hj (.inr (.inl rfl)) 0 (by norm_num),
      side 0 hx.le j hj.le (.inl rfl) 0 (by norm_num), side 0 hx.le (j + 1) hj (.inl rfl) 0 (by norm_num),
      vert nx le_rfl j hj (.inr rfl) 0 (by norm_num), vert 0 hx.le j hj (.inl rfl) 0 (by norm_num)]
    ring
  have s2 : ∀ i ∈ Finset.range nx, ∑ j ∈ Finset.range ny, (T i (j + 1) - T i j) = 0 := fun i hi => by
    have hi := Finset.mem_range.1 hi
    rw [Finset.sum_range_sub fun j => T i j]
    simp only [hT]
    rw [side i hi.le ny le_rfl (.inr (.inr (.inr rfl))) 1 (by norm_num), side (i + 1) hi ny le_rfl (.inr (.inr (.inr rfl))) 1 (by norm_num),
      side i hi.le 0 hy.le (.inr (.inr (.inl rfl))) 1 (by norm_num), side (i + 1) hi 0 hy.le (.inr (.inr (.inl rfl))) 1 (by norm_num),
      hori i hi ny le_rfl (.inr rfl) 1 (by norm_num), hori i hi 0 hy.le (.inl rfl) 1 (by norm_num)]
    ring
  rw [Finset.sum_eq_zero s1, Finset.sum_eq_zero s2, add_zero]

end Cavity8

end Pansfem
