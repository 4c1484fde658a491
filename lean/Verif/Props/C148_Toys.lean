/-
C148: the programs which try MMA on small problems.
-/
import Verif.Model.ProgramToy
import Verif.Lemmas.Optimisers
import Mathlib.Analysis.SpecialFunctions.Pow.Deriv
import Mathlib.Analysis.SpecialFunctions.Sqrt

noncomputable section

namespace Pansfem

/-- What the values of a problem have to be: the objective, the constraints, and the partial derivatives of them. -/
structure ToyValues.Right {n m : ℕ} (v : ToyValues n m) (F : (Fin n → ℝ) → ℝ) (G : Fin m → (Fin n → ℝ) → ℝ)
    (s : Fin n → ℝ) : Prop where
  f : v.f = F s
  df : ∀ j, HasDerivAt (fun t => F (Function.update s j t)) (v.df j) (s j)
  g : ∀ i, v.g i = G i s
  dg : ∀ i j, HasDerivAt (fun t => G i (Function.update s j t)) (v.dg i j) (s j)

/-- What a run of such a program has to be. -/
structure ToyRun {n m : ℕ} (F : (Fin n → ℝ) → ℝ) (G : Fin m → (Fin n → ℝ) → ℝ) (lo hi start : Fin n → ℝ)
    (N : ℕ) (r : List (ToyPass n m) × Ending) : Prop where
  /-- nothing undefined is computed -/
  defined : r.2 ≠ .undefined
  /-- the first design -/
  first : ∃ h : 0 < r.1.length, r.1[0].s = start
  /-- the number of passes -/
  length : r.1.length ≤ N
  /-- without convergence all passes are made -/
  exhausted : r.2 = .exhausted → r.1.length = N
  /-- every design lies inside of the box -/
  inside : ∀ p ∈ r.1, ∀ j, lo j < p.s j ∧ p.s j < hi j
  /-- the values are those of the problem, with its derivatives -/
  values : ∀ p ∈ r.1, p.v.Right F G p.s
  /-- no variable moves by half of the width of its box -/
  moves : ∀ i (h : i + 1 < r.1.length) j, |r.1[i + 1].s j - r.1[i].s j| < 0.5 * (hi j - lo j)
  /-- the loop is left at the first pass whose objective differs from the one before by less than the tolerance -/
  settled : ∀ i (h : i + 1 < r.1.length), Settled 1.0e-5 (F r.1[i].s) (F r.1[i + 1].s) ↔
    i + 2 = r.1.length ∧ r.2 = .optimised
  /-- the first pass never ends it -/
  second : r.2 = .optimised → 2 ≤ r.1.length

/-! ### The loop -/

/-- The optimiser keeps its box and its parameters. -/
structure ToySettings {n m : ℕ} (lo hi : Fin n → ℝ) (o : MMA n m) : Prop where
  xmin : o.xmin = lo
  xmax : o.xmax = hi
  albefa : o.albefa = 0.1
  raa0 : 0 ≤ o.raa0
  d : ∀ i, 0 ≤ o.d i
  move : o.move = 0.5
  eps : o.epsvalue = 1.0e-5

theorem toySettings {n m : ℕ} (lo hi : Fin n → ℝ) : ToySettings lo hi (toyMMA m lo hi) where
  xmin := rfl
  xmax := rfl
  albefa := rfl
  raa0 := by show (0 : ℝ) ≤ 1.0e-5; norm_num
  d _ := by show (0 : ℝ) ≤ 1; norm_num
  move := rfl
  eps := rfl

/-- One update from inside of the box. -/
theorem toy_update {n m : ℕ} {lo hi s : Fin n → ℝ} {o : MMA n m} (ho : ToySettings lo hi o)
    (hs : ∀ j, lo j < s j ∧ s j < hi j) (fuel : ℕ) (v : ToyValues n m) :
    mmaUpdate o fuel s v.f v.df v.g v.dg = .running ∨
      ∃ q, mmaUpdate o fuel s v.f v.df v.g v.dg = .done q ∧ ToySettings lo hi q.2 ∧ q.2.previousvalue = v.f ∧
        (∀ j, lo j < q.1 j ∧ q.1 j < hi j) ∧ ∀ j, |q.1 j - s j| < 0.5 * (hi j - lo j) := by
  have hok : MMAOk o s := by
    refine ⟨fun j => ?_, fun j => ?_, fun j => ?_, ?_, ?_, ?_⟩
    · rw [ho.xmin, ho.xmax]; exact (hs j).1.trans (hs j).2
    · rw [ho.xmin]; exact (hs j).1.le
    · rw [ho.xmax]; exact (hs j).2.le
    · rw [ho.albefa]; norm_num
    · rw [ho.albefa]; norm_num
    · rw [ho.move]; norm_num
  have hu := C83_mma hok (by rw [ho.albefa]; norm_num) ho.raa0 ho.d fuel v.f v.df v.g v.dg
  cases hq : mmaUpdate o fuel s v.f v.df v.g v.dg with
  | undefined => exact absurd hq hu
  | running => exact .inl rfl
  | done q =>
    refine .inr ⟨q, rfl, ?_, ?_, fun j => ?_, fun j => ?_⟩
    · obtain ⟨P, st, -, -, -, e⟩ := mmaUpdate_done hq
      rw [e]
      exact ⟨ho.xmin, ho.xmax, ho.albefa, ho.raa0, ho.d, ho.move, ho.eps⟩
    · obtain ⟨P, st, -, -, -, e⟩ := mmaUpdate_done hq
      rw [e]
    · have := (C48_mma hok (x' := q.1) (o' := q.2) hq j).1
      rwa [ho.xmin, ho.xmax] at this
    · have := (C48_mma hok (x' := q.1) (o' := q.2) hq j).2.1
      rwa [ho.xmin, ho.xmax, ho.move] at this

/-- The passes from any pass on. -/
structure ToyFrom {n m : ℕ} (V : (Fin n → ℝ) → Option (ToyValues n m)) (lo hi : Fin n → ℝ) (left : ℕ) (s : Fin n → ℝ)
    (prev : ℝ) (r : List (ToyPass n m) × Ending) : Prop where
  i1 : r.2 ≠ .undefined
  i2 : 0 < left → 0 < r.1.length
  i3 : ∀ h : 0 < r.1.length, r.1[0].s = s
  i4 : r.1.length ≤ left
  i5 : r.2 = .exhausted → r.1.length = left
  i6 : r.2 = .optimised → 0 < r.1.length
  i7 : ∀ p ∈ r.1, (∀ j, lo j < p.s j ∧ p.s j < hi j) ∧ V p.s = some p.v
  i8 : ∀ i (h : i + 1 < r.1.length) j, |r.1[i + 1].s j - r.1[i].s j| < 0.5 * (hi j - lo j)
  i9 : ∀ h : 0 < r.1.length, isConvergence prev 1.0e-5 r.1[0].v.f = true ↔ 1 = r.1.length ∧ r.2 = .optimised
  i10 : ∀ i (h : i + 1 < r.1.length), isConvergence r.1[i].v.f 1.0e-5 r.1[i + 1].v.f = true ↔
    i + 2 = r.1.length ∧ r.2 = .optimised

/-- The loop from any pass on. -/
theorem toyLoop_from {n m : ℕ} {V : (Fin n → ℝ) → Option (ToyValues n m)} {lo hi : Fin n → ℝ}
    (hV : ∀ s, (∀ j, lo j < s j ∧ s j < hi j) → ∃ v, V s = some v) (fuel : ℕ) :
    ∀ (left : ℕ) (s : Fin n → ℝ) (o : MMA n m), ToySettings lo hi o → (∀ j, lo j < s j ∧ s j < hi j) →
      ToyFrom V lo hi left s o.previousvalue (toyLoop V fuel left s o) := by
  intro left
  induction left with
  | zero => intro s o ho hs; constructor <;> simp [toyLoop]
  | succ left ih =>
    intro s o ho hs
    obtain ⟨v, hv⟩ := hV s hs
    by_cases hc : isConvergence o.previousvalue o.epsvalue v.f = true
    · have e : toyLoop V fuel (left + 1) s o = ([⟨s, v⟩], .optimised) := by
        simp only [toyLoop, hv, hc, if_true]
      rw [ho.eps] at hc
      rw [e]
      constructor <;> simp [hc, hv, hs]
    · rcases toy_update ho hs fuel v with hq | ⟨q, hq, h1, h2, h3, h4⟩
      · have e : toyLoop V fuel (left + 1) s o = ([⟨s, v⟩], .stuck) := by
          simp only [toyLoop, hv, hq, if_neg hc]
        rw [ho.eps] at hc
        rw [e]
        constructor <;> simp [hc, hv, hs]
      · have e : toyLoop V fuel (left + 1) s o =
            (⟨s, v⟩ :: (toyLoop V fuel left q.1 q.2).1, (toyLoop V fuel left q.1 q.2).2) := by
          simp only [toyLoop, hv, hq, if_neg hc]
        rw [ho.eps] at hc
        have hi := ih q.1 q.2 h1 h3
        rw [e]
        clear e
        generalize toyLoop V fuel left q.1 q.2 = r at hi ⊢
        obtain ⟨i1, i2, i3, i4, i5, i6, i7, i8, i9, i10⟩ := hi
        rw [h2] at i9
        refine ⟨i1, fun _ => by simp, fun _ => rfl, by simpa using i4, fun h => by simpa using i5 h, fun _ => by simp,
          ?_, ?_, ?_, ?_⟩
        · intro p hp
          rcases List.mem_cons.1 hp with rfl | hp
          · exact ⟨hs, hv⟩
          · exact i7 p hp
        · intro i h j
          simp only [List.length_cons, Nat.add_lt_add_iff_right] at h
          cases i with
          | zero =>
            simp only [zero_add, List.getElem_cons_succ, List.getElem_cons_zero, i3 h]
            exact h4 j
          | succ i => simpa using i8 i h j
        · intro h
          simp only [List.getElem_cons_zero, hc, List.length_cons, Bool.false_eq_true, false_iff]
          rintro ⟨h1, h2⟩
          have := i6 h2
          omega
        · intro i h
          simp only [List.length_cons, Nat.add_lt_add_iff_right] at h
          cases i with
          | zero =>
            simp only [zero_add, List.getElem_cons_succ, List.getElem_cons_zero, i9 h, List.length_cons]
            constructor <;> rintro ⟨a, b⟩ <;> exact ⟨by omega, b⟩
          | succ i =>
            simp only [List.getElem_cons_succ, i10 i h, List.length_cons]
            constructor <;> rintro ⟨a, b⟩ <;> exact ⟨by omega, b⟩

/-- **C148**: when a problem has a positive objective and its values can be computed inside of the box, every run of
the loop with MMA is sound. -/
theorem C148_loop {n m : ℕ} {V : (Fin n → ℝ) → Option (ToyValues n m)} {lo hi start : Fin n → ℝ}
    {F : (Fin n → ℝ) → ℝ} {G : Fin m → (Fin n → ℝ) → ℝ}
    (hV : ∀ s, (∀ j, lo j < s j ∧ s j < hi j) → ∃ v, V s = some v ∧ v.Right F G s ∧ 0 < F s)
    (hs : ∀ j, lo j < start j ∧ start j < hi j) (fuel : ℕ) {N : ℕ} (hN : 0 < N) :
    ToyRun F G lo hi start N (toyLoop V fuel N start (toyMMA m lo hi)) := by
  have hf := toyLoop_from
    (fun s h => (hV s h).imp fun v h => h.1) fuel N start (toyMMA m lo hi) (toySettings lo hi) hs
  generalize toyLoop V fuel N start (toyMMA m lo hi) = r at hf ⊢
  obtain ⟨i1, i2, i3, i4, i5, i6, i7, i8, i9, i10⟩ := hf
  have hr : ∀ p ∈ r.1, p.v.Right F G p.s ∧ 0 < F p.s := by
    intro p hp
    obtain ⟨a, b⟩ := i7 p hp
    obtain ⟨v, c, d⟩ := hV p.s a
    obtain rfl : v = p.v := Option.some.inj (c.symm.trans b)
    exact d
  refine ⟨i1, ⟨i2 hN, i3 _⟩, i4, i5, fun p hp => (i7 p hp).1, fun p hp => (hr p hp).1, i8, fun i h => ?_, fun h => ?_⟩
  · have ha := hr _ (List.getElem_mem h)
    have hb := hr _ (List.getElem_mem (show i < r.1.length by omega))
    rw [← i10 i h, ha.1.f, hb.1.f, isConvergence_iff (add_pos ha.2 hb.2)]
  · by_contra hc
    have h0 := i2 hN
    have := (i9 h0).2 ⟨by omega, h⟩
    have ha := hr _ (List.getElem_mem h0)
    rw [show (toyMMA m lo hi).previousvalue = 0 from rfl, ha.1.f, isConvergence_iff (by simpa using ha.2)] at this
    unfold Settled at this
    rw [sub_zero, add_zero, abs_of_pos ha.2] at this
    have := ha.2
    norm_num at *
    linarith

/-! ### The problems -/

/-- The partial derivatives of a sum of functions of one variable each. -/
theorem hasDerivAt_separable {n : ℕ} {h h' : Fin n → ℝ → ℝ} {s : Fin n → ℝ}
    (hd : ∀ i, HasDerivAt (h i) (h' i (s i)) (s i)) (j : Fin n) :
    HasDerivAt (fun t => ∑ i, h i (Function.update s j t i)) (h' j (s j)) (s j) := by
  have : ∀ i ∈ Finset.univ, HasDerivAt (fun t => h i (Function.update s j t i)) (if i = j then h' j (s j) else 0)
      (s j) := by
    intro i _
    by_cases hi : i = j
    · subst hi
      simpa using hd i
    · simp only [Function.update_of_ne hi, if_neg hi]
      exact hasDerivAt_const _ _
  have := HasDerivAt.fun_sum this
  simpa using this

theorem pow?_pos {x : ℝ} (h : 0 < x) (e : ℝ) : pow? x e = some (x ^ e) := by
  rw [pow?, if_neg fun hh => not_lt.2 h.le hh.1, if_neg fun hh => h.ne' hh.1]

theorem rpow_neg_nat {x : ℝ} (h : 0 < x) (k : ℕ) [k.AtLeastTwo] :
    x ^ (-(OfNat.ofNat k : ℝ)) = 1 / x ^ (OfNat.ofNat k : ℕ) := by
  rw [Real.rpow_neg h.le, one_div, Real.rpow_ofNat]

/-- The weight of the beam. -/
def beamWeight (s : Fin 5 → ℝ) : ℝ := 0.0624 * ∑ j, s j

/-- How far the deflection of the beam is above the limit. -/
def beamDeflection (s : Fin 5 → ℝ) : ℝ := (∑ j, (![61, 37, 19, 7, 1] : Fin 5 → ℝ) j / s j ^ 3) - 1

/-- The squared distance to a point. -/
def squaredDistance (c s : Fin 3 → ℝ) : ℝ := ∑ j, (s j - c j) ^ 2

/-- The weight of the truss of two bars. -/
def twoBarWeight (s : Fin 2 → ℝ) : ℝ := s 0 * Real.sqrt (1 + s 1 ^ 2)

/-- How far the stress in a bar is above the limit, `b` being 1 for the one and -1 for the other bar. -/
def twoBarStress (b : ℝ) (s : Fin 2 → ℝ) : ℝ :=
  0.124 * Real.sqrt (1 + s 1 ^ 2) * (8 / s 0 + b / (s 0 * s 1)) - 1

theorem beam_right (s : Fin 5 → ℝ) (h : ∀ j, 0 < s j) :
    ∃ v, beamValues s = some v ∧ v.Right beamWeight (fun _ => beamDeflection) s ∧ 0 < beamWeight s := by
  refine ⟨_, by simp only [beamValues, pow?_pos (h _), Option.bind_eq_bind, Option.bind_some, Option.pure_def]; rfl,
    ⟨?_, fun j => ?_, fun i => ?_, fun i j => ?_⟩, ?_⟩
  · simp [beamWeight, Fin.sum_univ_five]
  · have := (hasDerivAt_separable (h := fun _ x => x) (h' := fun _ _ => 1) (s := s) (fun i => hasDerivAt_id' _)
      j).const_mul (0.0624 : ℝ)
    simpa [beamWeight] using this
  · have e : ∀ j, s j ^ (-3 : ℝ) = 1 / s j ^ 3 := fun j => rpow_neg_nat (h j) 3
    simp only [beamDeflection, Fin.sum_univ_five, e]
    simp
    ring
  · have e : ∀ j, s j ^ (-4 : ℝ) = 1 / s j ^ 4 := fun j => rpow_neg_nat (h j) 4
    have := (hasDerivAt_separable (h := fun j x => (![61, 37, 19, 7, 1] : Fin 5 → ℝ) j / x ^ 3)
      (h' := fun j x => -3 * (![61, 37, 19, 7, 1] : Fin 5 → ℝ) j * (1 / x ^ 4)) (s := s) (fun i => by
        have := ((hasDerivAt_pow 3 (s i)).inv (pow_ne_zero 3 (h i).ne')).const_mul
          ((![61, 37, 19, 7, 1] : Fin 5 → ℝ) i)
        refine (this.congr_deriv ?_)
        have := (h i).ne'
        push_cast
        field_simp) j).sub_const (1 : ℝ)
    refine this.congr_deriv ?_
    fin_cases j <;> simp [e]
  · exact mul_pos (by norm_num) (Finset.sum_pos (fun j _ => h j) ⟨0, Finset.mem_univ _⟩)

theorem ball_right (s : Fin 3 → ℝ) (h : ∀ j, 0 < s j) :
    ∃ v, ballValues s = some v ∧ v.Right (squaredDistance fun _ => 0)
      (fun i s => squaredDistance ((![![5, 2, 1], ![3, 4, 3]] : Fin 2 → Fin 3 → ℝ) i) s - 9) s ∧
      0 < squaredDistance (fun _ => 0) s := by
  have hd : ∀ (c : Fin 3 → ℝ) (j : Fin 3), HasDerivAt (fun t => squaredDistance c (Function.update s j t))
      (2 * (s j - c j)) (s j) := by
    intro c j
    refine hasDerivAt_separable (h := fun j x => (x - c j) ^ 2) (h' := fun j x => 2 * (x - c j)) (fun i => ?_) j
    have := ((hasDerivAt_id' (s i)).sub_const (c i)).fun_pow 2
    simpa using this
  refine ⟨_, rfl, ⟨?_, fun j => ?_, fun i => ?_, fun i j => ?_⟩, ?_⟩
  · simp [squaredDistance, Fin.sum_univ_three]
  · refine (hd _ j).congr_deriv ?_
    fin_cases j <;> simp
  · fin_cases i <;> simp [squaredDistance, Fin.sum_univ_three]
  · refine ((hd _ j).sub_const 9).congr_deriv ?_
    fin_cases i <;> fin_cases j <;> simp
  · exact Finset.sum_pos (fun j _ => by have := h j; rw [sub_zero]; positivity) ⟨0, Finset.mem_univ _⟩

theorem twoBar_right (s : Fin 2 → ℝ) (h : ∀ j, 0 < s j) :
    ∃ v, twoBarValues s = some v ∧ v.Right twoBarWeight
      (fun i => twoBarStress ((![1, -1] : Fin 2 → ℝ) i)) s ∧ 0 < twoBarWeight s := by
  have hr : 0 < Real.sqrt (1 + s 1 ^ 2) := Real.sqrt_pos.2 (by positivity)
  have h0 := h 0
  have h1 := h 1
  have e1 : ∀ j, s j ^ (-1 : ℝ) = 1 / s j := fun j => by rw [Real.rpow_neg_one, one_div]
  have e2 : ∀ j, s j ^ (-2 : ℝ) = 1 / s j ^ 2 := fun j => rpow_neg_nat (h j) 2
  have hq : HasDerivAt (fun t => Real.sqrt (1 + t ^ 2)) (s 1 / Real.sqrt (1 + s 1 ^ 2)) (s 1) := by
    have := (((hasDerivAt_pow 2 (s 1)).const_add (1 : ℝ)).sqrt (by positivity))
    refine this.congr_deriv ?_
    field_simp
    norm_num
  have hd0 : ∀ b : ℝ, HasDerivAt (fun t => twoBarStress b (Function.update s 0 t))
      (0.124 * Real.sqrt (1 + s 1 ^ 2) * (-8 * (1 / s 0 ^ 2) - b * (1 / s 0 ^ 2) * (1 / s 1))) (s 0) := by
    intro b
    have hi := hasDerivAt_inv h0.ne'
    have := (((hi.const_mul 8).add (hi.const_mul (b / s 1))).const_mul
      (0.124 * Real.sqrt (1 + s 1 ^ 2))).sub_const 1
    refine (this.congr_deriv ?_).congr_of_eventuallyEq (Filter.Eventually.of_forall fun t => ?_)
    · field_simp
      ring
    · simp [twoBarStress]
      left
      rw [div_eq_mul_inv, div_eq_mul_inv, div_eq_mul_inv, mul_inv]
      ring
  have hd1 : ∀ b : ℝ, HasDerivAt (fun t => twoBarStress b (Function.update s 1 t))
      (0.124 * s 1 / Real.sqrt (1 + s 1 ^ 2) * (8 * (1 / s 0) + b * (1 / s 0) * (1 / s 1)) +
        0.124 * Real.sqrt (1 + s 1 ^ 2) * (-b * (1 / s 0) * (1 / s 1 ^ 2))) (s 1) := by
    intro b
    have hi := hasDerivAt_inv h1.ne'
    have := (((hq.const_mul 0.124).mul ((hi.const_mul (b / s 0)).const_add (8 / s 0)))).sub_const 1
    refine (this.congr_deriv ?_).congr_of_eventuallyEq (Filter.Eventually.of_forall fun t => ?_)
    · field_simp
    · simp [twoBarStress]
      left
      rw [div_eq_mul_inv b, div_eq_mul_inv b, mul_inv]
      ring
  refine ⟨_, by simp only [twoBarValues, pow?_pos (h _), div?, if_neg hr.ne', Option.bind_eq_bind, Option.bind_some,
    Option.pure_def]; rfl, ⟨?_, fun j => ?_, fun i => ?_, fun i j => ?_⟩, ?_⟩
  · simp [twoBarWeight]
  · fin_cases j
    · have := (hasDerivAt_id' (s 0)).mul_const (Real.sqrt (1 + s 1 ^ 2))
      simpa [twoBarWeight] using this
    · have := hq.const_mul (s 0)
      refine (this.congr_deriv ?_).congr_of_eventuallyEq (Filter.Eventually.of_forall fun t => ?_)
      · simp; ring
      · simp [twoBarWeight]
  · fin_cases i <;> simp only [twoBarStress, e1] <;> simp <;> (try left) <;> field_simp <;> ring
  · fin_cases i <;> fin_cases j
    · refine (hd0 1).congr_deriv ?_
      simp [e1, e2]
    · refine (hd1 1).congr_deriv ?_
      simp [e1, e2]
    · refine (hd0 (-1)).congr_deriv ?_
      simp [e1, e2]
    · refine (hd1 (-1)).congr_deriv ?_
      simp [e1, e2]
      left
      ring
  · exact mul_pos h0 hr

/-! ### The programs -/

/-- **C148 (beam)**: the program of test_MMA.cpp. -/
theorem C148_beam (fuel : ℕ) :
    ToyRun beamWeight (fun _ => beamDeflection) (fun _ => 1) (fun _ => 10) (fun _ => 5) 10 (runBeam fuel) :=
  C148_loop (fun s h => beam_right s fun j => one_pos.trans (h j).1) (fun _ => by norm_num) fuel (by norm_num)

/-- **C148 (balls)**: the program of test_MMA_TOY2.cpp. -/
theorem C148_balls (fuel : ℕ) :
    ToyRun (squaredDistance fun _ => 0)
      (fun i s => squaredDistance ((![![5, 2, 1], ![3, 4, 3]] : Fin 2 → Fin 3 → ℝ) i) s - 9)
      (fun _ => 0) (fun _ => 5) ![4, 3, 2] 10 (runBalls fuel) :=
  C148_loop (fun s h => ball_right s fun j => (h j).1)
    (fun j => by fin_cases j <;> norm_num) fuel (by norm_num)

/-- **C148 (two bars)**: the program of test_MMA_3.cpp. -/
theorem C148_two_bars (fuel : ℕ) :
    ToyRun twoBarWeight (fun i => twoBarStress ((![1, -1] : Fin 2 → ℝ) i)) ![0.2, 0.1] ![4, 1.6] ![1.5, 0.5] 100
      (runTwoBar fuel) :=
  C148_loop (fun s h => twoBar_right s fun j => lt_trans (by fin_cases j <;> norm_num) (h j).1)
    (fun j => by fin_cases j <;> norm_num) fuel (by norm_num)

/-- The beam starts on the limit. -/
example : beamDeflection (fun _ => 5) = 0 := by
  simp [beamDeflection, Fin.sum_univ_five]
  norm_num

example : squaredDistance ![5, 2, 1] ![4, 3, 2] - 9 = -6 := by
  simp [squaredDistance, Fin.sum_univ_three]
  norm_num

example : twoBarWeight ![1.5, 0.75] = 1.875 := by
  have : Real.sqrt (1 + 0.75 ^ 2) = 1.25 := by
    rw [show (1 : ℝ) + 0.75 ^ 2 = 1.25 ^ 2 by norm_num]; exact Real.sqrt_sq (by norm_num)
  simp only [twoBarWeight, Matrix.cons_val_zero, Matrix.cons_val_one, this]
  norm_num

/-- A run of the loop. -/
example (fuel : ℕ) : (runBeam fuel).1 ≠ [] ∧ (runBeam fuel).1.length ≤ 10 := by
  obtain ⟨h, -⟩ := (C148_beam fuel).first
  exact ⟨List.ne_nil_of_length_pos h, (C148_beam fuel).length⟩

end Pansfem
