/-
The inner iterations of MMA and CONLIN stay strictly inside the bounds (C48, C51), the approximations of
MMA (C49), and the inner iterations are always defined (C83).
-/
import Verif.Model.MMA
import Verif.Props.C10_DirectSolvers
import Mathlib.Tactic.Linarith
import Mathlib.Tactic.Positivity
import Mathlib.Tactic.FieldSimp
import Mathlib.Tactic.Ring
import Mathlib.Tactic.NormNum
import Mathlib.LinearAlgebra.Matrix.ToLinearEquiv
import Mathlib.Algebra.BigOperators.Fin
import Mathlib.Analysis.Calculus.Deriv.Inv
import Mathlib.Analysis.Calculus.Deriv.Pow
import Mathlib.Analysis.Calculus.Deriv.Mul
import Mathlib.Analysis.Calculus.Deriv.Add
import Mathlib.Analysis.Calculus.Deriv.Comp

namespace Pansfem

open Classical

/-- The variables are strictly inside their bounds, slacks and multipliers are positive. -/
def Inside {n m : ℕ} (P : Sub n m) (w : Pt n m) : Prop :=
  (∀ j, P.alpha j < w.x j ∧ w.x j < P.beta j ∧ 0 < w.gsi j ∧ 0 < w.ita j) ∧
  (∀ i, 0 < w.y i ∧ 0 < w.lam i ∧ 0 < w.mu i ∧ 0 < w.s i) ∧ 0 < w.z ∧ 0 < w.zeta

section
variable {n m : ℕ} {P : Sub n m}

/-! ### The step length -/

theorem foldl_max_ge {k : ℕ} (f : Fin k → ℝ) : ∀ (l : List (Fin k)) (t0 : ℝ),
    t0 ≤ l.foldl (fun t i => if t < f i then f i else t) t0 ∧
      ∀ i ∈ l, f i ≤ l.foldl (fun t i => if t < f i then f i else t) t0
  | [], t0 => ⟨le_refl _, fun i h => absurd h (List.not_mem_nil)⟩
  | a :: l, t0 => by
    have ih := foldl_max_ge f l (if t0 < f a then f a else t0)
    rw [List.foldl_cons]
    have h1 : t0 ≤ if t0 < f a then f a else t0 := by
      by_cases h : t0 < f a
      · rw [if_pos h]; exact h.le
      · rw [if_neg h]
    have h2 : f a ≤ if t0 < f a then f a else t0 := by
      by_cases h : t0 < f a
      · rw [if_pos h]
      · rw [if_neg h]; exact not_lt.1 h
    refine ⟨h1.trans ih.1, fun i hi => ?_⟩
    rcases List.mem_cons.1 hi with rfl | hi
    · exact h2.trans ih.1
    · exact ih.2 i hi

theorem le_loopMax {k : ℕ} (f : Fin k → ℝ) (i : Fin k) : f i ≤ loopMax f :=
  (foldl_max_ge f (List.finRange k) 0).2 i (List.mem_finRange i)

theorem keep_pos {v dv tau : ℝ} (hv : 0 < v) (h : tau * (-1.01 * dv / v) ≤ 1) : 0 < v + tau * dv := by
  have h1 : tau * (-1.01 * dv / v) * v ≤ 1 * v := mul_le_mul_of_nonneg_right h hv.le
  have h2 : tau * (-1.01 * dv / v) * v = -(1.01 * (tau * dv)) := by
    field_simp
  rw [h2] at h1
  norm_num at h1 ⊢
  linarith

theorem ratio_le {M r tau : ℝ} (hM : 1 ≤ M) (hr : r ≤ M) (h0 : 0 < tau) (h1 : tau ≤ 1 / M) :
    tau * r ≤ 1 := by
  have hM0 : 0 < M := by linarith
  calc tau * r ≤ tau * M := mul_le_mul_of_nonneg_left hr h0.le
    _ ≤ 1 / M * M := mul_le_mul_of_nonneg_right h1 hM0.le
    _ = 1 := by field_simp

theorem stepLength_pos {w d : Pt n m} {tau : ℝ} (h : stepLength P w d = some tau) : 0 < tau ∧ tau ≤ 1 := by
  unfold stepLength at h
  by_cases hd : StepDivisible P w
  · rw [if_pos hd] at h
    have hM := Option.some.inj h
    have h1 : (1 : ℝ) ≤ max (max (max 1 (loopMax (txmaxj P w d))) (loopMax (tymaxi w d)))
      (max (-1.01 * d.z / w.z) (-1.01 * d.zeta / w.zeta)) :=
      le_max_of_le_left (le_max_of_le_left (le_max_left _ _))
    rw [← hM]
    exact ⟨by positivity, by rw [div_le_one (by linarith)]; exact h1⟩
  · rw [if_neg hd] at h; exact nomatch h

/-- **C48 (step)**: along any direction, every step that is not longer than the step length of the code
stays strictly inside. -/
theorem C48_step {w d : Pt n m} {tau0 tau : ℝ} (hw : Inside P w) (h : stepLength P w d = some tau0)
    (h0 : 0 < tau) (h1 : tau ≤ tau0) : Inside P (w.step d tau) := by
  unfold stepLength at h
  by_cases hd : StepDivisible P w
  swap
  · rw [if_neg hd] at h; exact nomatch h
  rw [if_pos hd] at h
  have htau := Option.some.inj h
  rw [← htau] at h1
  have hM : (1 : ℝ) ≤ max (max (max 1 (loopMax (txmaxj P w d))) (loopMax (tymaxi w d)))
      (max (-1.01 * d.z / w.z) (-1.01 * d.zeta / w.zeta)) :=
    le_max_of_le_left (le_max_of_le_left (le_max_left _ _))
  obtain ⟨hx, hy, hz, hze⟩ := hw
  have X : ∀ j, ∀ r, r ≤ txmaxj P w d j → tau * r ≤ 1 := fun j r hr =>
    ratio_le hM (le_max_of_le_left (le_max_of_le_left (le_max_of_le_right (hr.trans (le_loopMax _ j))))) h0 h1
  have Y : ∀ i, ∀ r, r ≤ tymaxi w d i → tau * r ≤ 1 := fun i r hr =>
    ratio_le hM (le_max_of_le_left (le_max_of_le_right (hr.trans (le_loopMax _ i)))) h0 h1
  refine ⟨fun j => ?_, fun i => ?_, ?_, ?_⟩
  · obtain ⟨ha, hb, hg, hi⟩ := hx j
    have e1 := keep_pos (v := w.x j - P.alpha j) (dv := d.x j) (by linarith)
      (X j _ (le_max_of_le_left (le_max_left _ _)))
    have e2 := keep_pos (v := P.beta j - w.x j) (dv := -d.x j) (tau := tau) (by linarith)
      (by
        have := X j (1.01 * d.x j / (P.beta j - w.x j)) (le_max_of_le_left (le_max_right _ _))
        have e : -1.01 * -d.x j = 1.01 * d.x j := by ring
        rw [e]; exact this)
    have e3 := keep_pos hg (X j _ (le_max_of_le_right (le_max_left _ _)))
    have e4 := keep_pos hi (X j _ (le_max_of_le_right (le_max_right _ _)))
    exact ⟨by change _ < w.x j + tau * d.x j; linarith, by change w.x j + tau * d.x j < _; linarith, e3, e4⟩
  · obtain ⟨ha, hb, hg, hi⟩ := hy i
    exact ⟨keep_pos ha (Y i _ (le_max_of_le_left (le_max_left _ _))),
      keep_pos hb (Y i _ (le_max_of_le_left (le_max_right _ _))),
      keep_pos hg (Y i _ (le_max_of_le_right (le_max_left _ _))),
      keep_pos hi (Y i _ (le_max_of_le_right (le_max_right _ _)))⟩
  · exact keep_pos hz (ratio_le hM (le_max_of_le_right (le_max_left _ _)) h0 h1)
  · exact keep_pos hze (ratio_le hM (le_max_of_le_right (le_max_right _ _)) h0 h1)

/-! ### The loop -/

/-- **C48 (start)**: the loop starts strictly inside. -/
theorem C48_start (h : ∀ j, P.alpha j < P.beta j) : ∃ w, ipStart P = some w ∧ Inside P w := by
  unfold ipStart
  have hx : ∀ j, 0.5 * (P.alpha j + P.beta j) - P.alpha j ≠ 0 ∧ P.beta j - 0.5 * (P.alpha j + P.beta j) ≠ 0 := by
    intro j
    have := h j
    constructor
    · norm_num; intro e; linarith
    · norm_num; intro e; linarith
  refine ⟨_, if_pos hx, fun j => ⟨?_, ?_, ?_, ?_⟩, fun i => ⟨?_, ?_, ?_, ?_⟩, ?_, ?_⟩
  · have := h j; norm_num; linarith
  · have := h j; norm_num; linarith
  · exact lt_of_lt_of_le one_pos (le_max_left _ _)
  · exact lt_of_lt_of_le one_pos (le_max_left _ _)
  · exact one_pos
  · exact one_pos
  · exact lt_of_lt_of_le one_pos (le_max_left _ _)
  · exact one_pos
  · exact one_pos
  · exact one_pos

theorem backtrack_eq (w d : Pt n m) (eps norm0 tau : ℝ) (k : ℕ) :
    backtrack P w d eps norm0 k tau = (kktNorm P (w.step d tau) eps).bind fun v =>
      if v < norm0 then some (w.step d tau)
      else match k with
        | 0 => some (w.step d tau)
        | k + 1 => backtrack P w d eps norm0 k (tau * 0.5) := by
  cases k <;> (conv_lhs => unfold backtrack) <;> rfl

/-- The backtracking takes a step that is not longer than the first. -/
theorem backtrack_step {w d w' : Pt n m} {eps norm0 : ℝ} : ∀ (k : ℕ) (tau : ℝ), 0 < tau →
    backtrack P w d eps norm0 k tau = some w' → ∃ t, 0 < t ∧ t ≤ tau ∧ w' = w.step d t := by
  intro k
  induction k with
  | zero =>
    intro tau ht h
    rw [backtrack_eq] at h
    obtain ⟨v, hv, h⟩ := Option.bind_eq_some_iff.1 h
    refine ⟨tau, ht, le_refl _, ?_⟩
    by_cases hc : v < norm0
    · rw [if_pos hc] at h; exact (Option.some.inj h).symm
    · rw [if_neg hc] at h; exact (Option.some.inj h).symm
  | succ k ih =>
    intro tau ht h
    rw [backtrack_eq] at h
    obtain ⟨v, hv, h⟩ := Option.bind_eq_some_iff.1 h
    by_cases hc : v < norm0
    · rw [if_pos hc] at h; exact ⟨tau, ht, le_refl _, (Option.some.inj h).symm⟩
    · rw [if_neg hc] at h
      obtain ⟨t, h1, h2, h3⟩ := ih _ (by positivity) h
      exact ⟨t, h1, h2.trans (by norm_num; linarith), h3⟩

/-- What one pass does. -/
theorem ipBody_eq_some {st st' : Pt n m × ℝ} (h : ipBody P st = some st') : ∃ d tau0 norm0 v,
    newton P st.1 st.2 = some d ∧ stepLength P st.1 d = some tau0 ∧ kktNorm P st.1 st.2 = some norm0 ∧
      backtrack P st.1 d st.2 norm0 49 tau0 = some st'.1 ∧ kktNorm P st'.1 st.2 = some v ∧
      st'.2 = if v < 0.9 * st.2 then st.2 * 0.1 else st.2 * 1.0 := by
  unfold ipBody at h
  obtain ⟨d, hd, h⟩ := Option.bind_eq_some_iff.1 h
  obtain ⟨tau, ht, h⟩ := Option.bind_eq_some_iff.1 h
  obtain ⟨n0, hn, h⟩ := Option.bind_eq_some_iff.1 h
  obtain ⟨w, hw, h⟩ := Option.bind_eq_some_iff.1 h
  obtain ⟨v, hv, h⟩ := Option.bind_eq_some_iff.1 h
  have := Option.some.inj h
  subst this
  exact ⟨d, tau, n0, v, hd, ht, hn, hw, hv, rfl⟩

/-- **C48 (pass)**: a pass of the inner loop stays strictly inside. -/
theorem C48_pass {st st' : Pt n m × ℝ} (hw : Inside P st.1) (h : ipBody P st = some st') :
    Inside P st'.1 := by
  obtain ⟨d, tau0, norm0, v, _, ht, _, hb, _⟩ := ipBody_eq_some h
  obtain ⟨t, h1, h2, h3⟩ := backtrack_step _ _ (stepLength_pos ht).1 hb
  rw [h3]
  exact C48_step hw ht h1 h2

/-- The state after a number of passes. -/
noncomputable def ipPasses (P : Sub n m) : ℕ → Option (Pt n m × ℝ)
  | 0 => (ipStart P).map fun w => (w, 1)
  | k + 1 => (ipPasses P k).bind (ipBody P)

/-- **C48 (all passes)**: after any number of passes the variables are strictly inside their bounds and
slacks and multipliers are positive. -/
theorem C48_passes (h : ∀ j, P.alpha j < P.beta j) (k : ℕ) {st : Pt n m × ℝ}
    (hk : ipPasses P k = some st) : Inside P st.1 := by
  induction k generalizing st with
  | zero =>
    obtain ⟨w, hw, hi⟩ := C48_start h
    rw [ipPasses, hw] at hk
    rw [← Option.some.inj hk]; exact hi
  | succ k ih =>
    obtain ⟨st0, h0, h1⟩ := Option.bind_eq_some_iff.1 hk
    exact C48_pass (ih h0) h1

theorem ipLoop_eq (fuel : ℕ) (st : Pt n m × ℝ) :
    ipLoop P fuel st = if 1.0e-7 < st.2 then
      match fuel with
      | 0 => .running
      | fuel + 1 =>
        match ipBody P st with
        | none => .undefined
        | some st' => ipLoop P fuel st'
      else .done st := by
  cases fuel with
  | zero => conv_lhs => unfold ipLoop
  | succ fuel =>
    conv_lhs => unfold ipLoop
    rfl

/-- The loop returns the state after some number of passes, the first with a small parameter. -/
theorem ipLoop_done {fuel : ℕ} {st fin : Pt n m × ℝ} (h : ipLoop P fuel st = .done fin) :
    (fin = st ∧ ¬ 1.0e-7 < st.2) ∨ (1.0e-7 < st.2 ∧ ∃ fuel' st', fuel = fuel' + 1 ∧ ipBody P st = some st' ∧
      ipLoop P fuel' st' = .done fin) := by
  rw [ipLoop_eq] at h
  by_cases hc : 1.0e-7 < st.2
  · rw [if_pos hc] at h
    refine Or.inr ⟨hc, ?_⟩
    cases fuel with
    | zero => exact nomatch h
    | succ fuel =>
      cases hb : ipBody P st with
      | none => simp only [hb] at h; exact nomatch h
      | some st' => simp only [hb] at h; exact ⟨fuel, st', rfl, rfl, h⟩
  · rw [if_neg hc] at h
    exact Or.inl ⟨(Run.done.inj h).symm, hc⟩

theorem ipLoop_invariant (I : Pt n m × ℝ → Prop) (hI : ∀ st st', I st → 1.0e-7 < st.2 → ipBody P st = some st' → I st')
    {fuel : ℕ} {st fin : Pt n m × ℝ} (h0 : I st) (h : ipLoop P fuel st = .done fin) :
    I fin ∧ ¬ 1.0e-7 < fin.2 := by
  induction fuel generalizing st with
  | zero =>
    rcases ipLoop_done h with ⟨rfl, hc⟩ | ⟨_, f', st', hf, _⟩
    · exact ⟨h0, hc⟩
    · exact nomatch hf
  | succ fuel ih =>
    rcases ipLoop_done h with ⟨rfl, hc⟩ | ⟨hc, f', st', hf, hb, hl⟩
    · exact ⟨h0, hc⟩
    · have : f' = fuel := by omega
      subst this
      exact ih (hI st st' h0 hc hb) hl

theorem ipSolve_done {fuel : ℕ} {fin : Pt n m × ℝ} (h : ipSolve P fuel = .done fin) :
    ∃ w, ipStart P = some w ∧ ipLoop P fuel (w, 1) = .done fin := by
  unfold ipSolve at h
  cases hs : ipStart P with
  | none => rw [hs] at h; exact nomatch h
  | some w => rw [hs] at h; exact ⟨w, rfl, h⟩

/-- **C48 (result of the inner loop)**. -/
theorem C48_inner (h : ∀ j, P.alpha j < P.beta j) {fuel : ℕ} {fin : Pt n m × ℝ}
    (hs : ipSolve P fuel = .done fin) : Inside P fin.1 := by
  obtain ⟨w, hw, hl⟩ := ipSolve_done hs
  obtain ⟨w', hw', hi⟩ := C48_start h
  rw [hw] at hw'
  obtain rfl := Option.some.inj hw'
  exact (ipLoop_invariant (fun st => Inside P st.1) (fun st st' h0 _ hb => C48_pass h0 hb) hi hl).1

end

/-! ### MMA -/

section
variable {n m : ℕ} {o : MMA n m} {xk dfdx : Fin n → ℝ} {g : Fin m → ℝ} {dgdx : Fin m → Fin n → ℝ}

/-- The parameters are sensible and the design is in the box. -/
structure MMAOk (o : MMA n m) (xk : Fin n → ℝ) : Prop where
  box : ∀ j, o.xmin j < o.xmax j
  lower : ∀ j, o.xmin j ≤ xk j
  upper : ∀ j, xk j ≤ o.xmax j
  albefa0 : 0 ≤ o.albefa
  albefa1 : o.albefa < 1
  move : 0 < o.move

/-- The asymptotes are on both sides of the design, at a distance between one hundredth and ten times the
width of the box. -/
theorem asy_bounds (h : ∀ j, o.xmin j < o.xmax j) (j : Fin n) :
    xk j - 10 * (o.xmax j - o.xmin j) ≤ asyL o xk j ∧ asyL o xk j ≤ xk j - 0.01 * (o.xmax j - o.xmin j) ∧
    xk j + 0.01 * (o.xmax j - o.xmin j) ≤ asyU o xk j ∧ asyU o xk j ≤ xk j + 10 * (o.xmax j - o.xmin j) := by
  have hr := h j
  unfold asyL asyU
  refine ⟨le_min (le_max_left _ _) (by norm_num; linarith), min_le_right _ _,
    le_min (le_max_left _ _) (by norm_num; linarith), min_le_right _ _⟩

theorem mma_alpha_lt (h : MMAOk o xk) (j : Fin n) :
    mmaAlpha o xk j < mmaBeta o xk j ∧ o.xmin j ≤ mmaAlpha o xk j ∧ mmaBeta o xk j ≤ o.xmax j ∧
      xk j - o.move * (o.xmax j - o.xmin j) ≤ mmaAlpha o xk j ∧
      mmaBeta o xk j ≤ xk j + o.move * (o.xmax j - o.xmin j) ∧
      asyL o xk j ≤ mmaAlpha o xk j ∧ mmaBeta o xk j ≤ asyU o xk j := by
  obtain ⟨_, h2, h3, _⟩ := asy_bounds (o := o) (xk := xk) h.box j
  have hr := h.box j
  have hl := h.lower j
  have hu := h.upper j
  have hm := mul_pos h.move (sub_pos.2 hr)
  norm_num at h2 h3
  have hL : 0 < xk j - asyL o xk j := by linarith
  have hU : 0 < asyU o xk j - xk j := by linarith
  have a1 : o.albefa * (xk j - asyL o xk j) < xk j - asyL o xk j := by
    have := mul_lt_mul_of_pos_right h.albefa1 hL; linarith
  have a2 : o.albefa * (asyU o xk j - xk j) < asyU o xk j - xk j := by
    have := mul_lt_mul_of_pos_right h.albefa1 hU; linarith
  have a3 : 0 ≤ o.albefa * (xk j - asyL o xk j) := mul_nonneg h.albefa0 hL.le
  have a4 : 0 ≤ o.albefa * (asyU o xk j - xk j) := mul_nonneg h.albefa0 hU.le
  unfold mmaAlpha mmaBeta
  refine ⟨?_, le_max_of_le_left (le_max_left _ _), min_le_of_left_le (min_le_left _ _), le_max_right _ _,
    min_le_right _ _, le_max_of_le_left (le_max_of_le_right (by linarith)),
    min_le_of_left_le (min_le_of_right_le (by linarith))⟩
  exact max_lt (max_lt (lt_min (lt_min hr (by linarith)) (by linarith))
    (lt_min (lt_min (by linarith) (by linarith)) (by linarith)))
    (lt_min (lt_min (by linarith) (by linarith)) (by linarith))

theorem mmaSub_eq_some {P : Sub n m} (h : mmaSub o xk dfdx g dgdx = some P) :
    P.basis = mmaBasis (asyL o xk) (asyU o xk) ∧ P.alpha = mmaAlpha o xk ∧ P.beta = mmaBeta o xk ∧
      P.p0 = (fun j => mmaP o xk (dfdx j) j) ∧ P.q0 = (fun j => mmaQ o xk (dfdx j) j) ∧
      P.p = (fun i j => mmaP o xk (dgdx i j) j) ∧ P.q = (fun i j => mmaQ o xk (dgdx i j) j) ∧
      P.b = (fun i => -g i + ∑ j, (mmaP o xk (dgdx i j) j / (asyU o xk j - xk j) +
        mmaQ o xk (dgdx i j) j / (xk j - asyL o xk j))) ∧
      P.a0 = o.a0 ∧ P.a = o.a ∧ P.c = o.c ∧ P.d = o.d := by
  unfold mmaSub at h
  by_cases hc : ∀ j, o.xmax j - o.xmin j ≠ 0 ∧ asyU o xk j - xk j ≠ 0 ∧ xk j - asyL o xk j ≠ 0
  · rw [if_pos hc] at h
    rw [← Option.some.inj h]
    exact ⟨rfl, rfl, rfl, rfl, rfl, rfl, rfl, rfl, rfl, rfl, rfl, rfl⟩
  · rw [if_neg hc] at h; exact nomatch h

/-- The subproblem is defined. -/
theorem mmaSub_defined (h : ∀ j, o.xmin j < o.xmax j) : ∃ P, mmaSub o xk dfdx g dgdx = some P := by
  unfold mmaSub
  refine ⟨_, if_pos fun j => ?_⟩
  obtain ⟨_, h2, h3, _⟩ := asy_bounds (o := o) (xk := xk) h j
  have hr := h j
  norm_num at h2 h3
  exact ⟨by linarith, by linarith, by linarith⟩

theorem mmaUpdate_done {fuel : ℕ} {f : ℝ} {r : (Fin n → ℝ) × MMA n m}
    (h : mmaUpdate o fuel xk f dfdx g dgdx = .done r) : ∃ P st, mmaSub o xk dfdx g dgdx = some P ∧
      ipSolve P fuel = .done st ∧ r.1 = st.1.x ∧ r.2 = { o with
        L := asyL o xk, U := asyU o xk, previousvalue := f, k := o.k + 1, xkm2 := o.xkm1, xkm1 := xk } := by
  unfold mmaUpdate at h
  cases hs : mmaSub o xk dfdx g dgdx with
  | none => rw [hs] at h; exact nomatch h
  | some P =>
    simp only [hs] at h
    cases hl : ipSolve P fuel with
    | undefined => simp only [hl] at h; exact nomatch h
    | running => simp only [hl] at h; exact nomatch h
    | done st =>
      simp only [hl] at h
      rw [← Run.done.inj h]
      exact ⟨P, st, rfl, hl, rfl, rfl⟩

/-- **C48**: the new design of `MMA::UpdateVariables` lies strictly inside the box, inside the move limit and
between the asymptotes. -/
theorem C48_mma (h : MMAOk o xk) {fuel : ℕ} {f : ℝ} {x' : Fin n → ℝ} {o' : MMA n m}
    (hr : mmaUpdate o fuel xk f dfdx g dgdx = .done (x', o')) (j : Fin n) :
    (o.xmin j < x' j ∧ x' j < o.xmax j) ∧ |x' j - xk j| < o.move * (o.xmax j - o.xmin j) ∧
      (o'.L j < x' j ∧ x' j < o'.U j) := by
  obtain ⟨P, st, hP, hs, hx, ho⟩ := mmaUpdate_done hr
  dsimp only at hx ho
  obtain ⟨_, ha, hb, _⟩ := mmaSub_eq_some hP
  have hab := mma_alpha_lt h
  have hin := (C48_inner (P := P) (fun j => by rw [ha, hb]; exact (hab j).1) hs).1 j
  rw [ha, hb, ← hx] at hin
  obtain ⟨h1, h2, _⟩ := hin
  obtain ⟨_, c1, c2, c3, c4, c5, c6⟩ := hab j
  refine ⟨⟨by linarith, by linarith⟩, abs_lt.2 ⟨by linarith, by linarith⟩, ?_, ?_⟩
  · rw [ho]; exact lt_of_le_of_lt c5 h1
  · rw [ho]; exact lt_of_lt_of_le h2 c6

/-- The parameters after a call. -/
theorem mmaUpdate_params {fuel : ℕ} {f : ℝ} {x' : Fin n → ℝ} {o' : MMA n m}
    (hr : mmaUpdate o fuel xk f dfdx g dgdx = .done (x', o')) : o'.xmin = o.xmin ∧ o'.xmax = o.xmax ∧
      o'.albefa = o.albefa ∧ o'.move = o.move := by
  obtain ⟨P, st, hP, hs, hx, ho⟩ := mmaUpdate_done hr
  dsimp only at ho
  rw [ho]; exact ⟨rfl, rfl, rfl, rfl⟩

/-- The data passed in one call: bound on the passes, value, derivatives. -/
abbrev MMACall (n m : ℕ) := ℕ × ℝ × (Fin n → ℝ) × (Fin m → ℝ) × (Fin m → Fin n → ℝ)

/-- Any number of calls. -/
inductive MMACalls : MMA n m → (Fin n → ℝ) → MMA n m → (Fin n → ℝ) → Prop
  | nil (o x) : MMACalls o x o x
  | cons {o x o1 x1 o2 x2} (c : MMACall n m)
      (h : mmaUpdate o c.1 x c.2.1 c.2.2.1 c.2.2.2.1 c.2.2.2.2 = .done (x1, o1))
      (t : MMACalls o1 x1 o2 x2) : MMACalls o x o2 x2

/-- **C48 (all calls)**: over any sequence of calls of `UpdateVariables` with any values the design stays in
the box. -/
theorem C48_calls {o o' : MMA n m} {x x' : Fin n → ℝ} (h : MMAOk o x) (hc : MMACalls o x o' x') :
    ∀ j, o.xmin j ≤ x' j ∧ x' j ≤ o.xmax j := by
  induction hc with
  | nil o x => exact fun j => ⟨h.lower j, h.upper j⟩
  | cons c hr t ih =>
    obtain ⟨e1, e2, e3, e4⟩ := mmaUpdate_params hr
    have hb := C48_mma h hr
    have := ih ⟨by rw [e1, e2]; exact h.box, fun j => by rw [e1]; exact (hb j).1.1.le,
      fun j => by rw [e2]; exact (hb j).1.2.le, by rw [e3]; exact h.albefa0, by rw [e3]; exact h.albefa1,
      by rw [e4]; exact h.move⟩
    rwa [e1, e2] at this

end

/-! ### What the loop needs of the approximating functions -/

/-- The approximating functions are defined and convex between the bounds, the coefficients are not
negative. -/
structure GoodSub {n m : ℕ} (P : Sub n m) : Prop where
  ok : ∀ j x, P.alpha j < x → x < P.beta j → P.basis.ok j x
  curv : ∀ j p q x, 0 ≤ p → 0 ≤ q → P.alpha j < x → x < P.beta j → 0 ≤ P.basis.curv j p q x
  deriv1 : ∀ j p q x, P.alpha j < x → x < P.beta j → HasDerivAt (P.basis.val j p q) (P.basis.slope j p q x) x
  deriv2 : ∀ j p q x, P.alpha j < x → x < P.beta j → HasDerivAt (P.basis.slope j p q) (P.basis.curv j p q x) x
  tangent : ∀ j p q x y, 0 ≤ p → 0 ≤ q → P.alpha j < x → x < P.beta j → P.alpha j ≤ y → y ≤ P.beta j →
    P.basis.val j p q x + P.basis.slope j p q x * (y - x) ≤ P.basis.val j p q y
  valadd : ∀ j p q p' q' t x, P.basis.val j (p + t * p') (q + t * q') x =
    P.basis.val j p q x + t * P.basis.val j p' q' x
  slopeadd : ∀ j p q p' q' t x, P.basis.slope j (p + t * p') (q + t * q') x =
    P.basis.slope j p q x + t * P.basis.slope j p' q' x
  curvadd : ∀ j p q p' q' t x, P.basis.curv j (p + t * p') (q + t * q') x =
    P.basis.curv j p q x + t * P.basis.curv j p' q' x
  p0 : ∀ j, 0 ≤ P.p0 j
  q0 : ∀ j, 0 ≤ P.q0 j
  p : ∀ i j, 0 ≤ P.p i j
  q : ∀ i j, 0 ≤ P.q i j
  d : ∀ i, 0 ≤ P.d i

theorem inv_tangent {a b : ℝ} (ha : 0 < a) (hb : 0 < b) : 1 / a + (a - b) / a ^ 2 ≤ 1 / b := by
  rw [← sub_nonneg]
  have : 1 / b - (1 / a + (a - b) / a ^ 2) = (a - b) ^ 2 / (a ^ 2 * b) := by
    field_simp; ring
  rw [this]; positivity

theorem mmaBasis_deriv1 {n : ℕ} {L U : Fin n → ℝ} {j : Fin n} {x : ℝ} (p q : ℝ) (h : L j < x) (h' : x < U j) :
    HasDerivAt ((mmaBasis L U).val j p q) ((mmaBasis L U).slope j p q x) x := by
  have h1 : U j - x ≠ 0 := by linarith
  have h2 : x - L j ≠ 0 := by linarith
  have d1 : HasDerivAt (fun x => U j - x) (-1) x := (hasDerivAt_id x).const_sub (U j)
  have d2 : HasDerivAt (fun x => x - L j) 1 x := (hasDerivAt_id x).sub_const (L j)
  have e1 := (d1.inv h1).const_mul p
  have e2 := (d2.inv h2).const_mul q
  refine ((e1.add e2).congr_deriv ?_).congr_of_eventuallyEq (Filter.Eventually.of_forall fun y => ?_)
  · simp only [mmaBasis]; field_simp; ring
  · simp only [mmaBasis, Pi.add_apply, Pi.inv_apply, div_eq_mul_inv]

theorem mmaBasis_deriv2 {n : ℕ} {L U : Fin n → ℝ} {j : Fin n} {x : ℝ} (p q : ℝ) (h : L j < x) (h' : x < U j) :
    HasDerivAt ((mmaBasis L U).slope j p q) ((mmaBasis L U).curv j p q x) x := by
  have h1 : U j - x ≠ 0 := by linarith
  have h2 : x - L j ≠ 0 := by linarith
  have d1 : HasDerivAt (fun x => U j - x) (-1) x := (hasDerivAt_id x).const_sub (U j)
  have d2 : HasDerivAt (fun x => x - L j) 1 x := (hasDerivAt_id x).sub_const (L j)
  have e1 := ((d1.pow 2).inv (pow_ne_zero 2 h1)).const_mul p
  have e2 := ((d2.pow 2).inv (pow_ne_zero 2 h2)).const_mul q
  refine ((e1.sub e2).congr_deriv ?_).congr_of_eventuallyEq (Filter.Eventually.of_forall fun y => ?_)
  · simp only [mmaBasis, Pi.pow_apply]; field_simp; ring
  · simp only [mmaBasis, Pi.sub_apply, Pi.inv_apply, Pi.pow_apply, div_eq_mul_inv]

theorem mmaBasis_tangent {n : ℕ} {L U : Fin n → ℝ} {j : Fin n} {p q x y : ℝ} (hp : 0 ≤ p) (hq : 0 ≤ q)
    (h : L j < x) (h' : x < U j) (k : L j < y) (k' : y < U j) :
    (mmaBasis L U).val j p q x + (mmaBasis L U).slope j p q x * (y - x) ≤ (mmaBasis L U).val j p q y := by
  have t1 := mul_le_mul_of_nonneg_left (inv_tangent (a := U j - x) (b := U j - y) (by linarith) (by linarith)) hp
  have t2 := mul_le_mul_of_nonneg_left (inv_tangent (a := x - L j) (b := y - L j) (by linarith) (by linarith)) hq
  simp only [mmaBasis]
  have e1 : p * (1 / (U j - x) + (U j - x - (U j - y)) / (U j - x) ^ 2) =
      p / (U j - x) + p / (U j - x) ^ 2 * (y - x) := by ring
  have e2 : q * (1 / (x - L j) + (x - L j - (y - L j)) / (x - L j) ^ 2) =
      q / (x - L j) - q / (x - L j) ^ 2 * (y - x) := by ring
  have e3 : p * (1 / (U j - y)) = p / (U j - y) := by ring
  have e4 : q * (1 / (y - L j)) = q / (y - L j) := by ring
  rw [e1, e3] at t1
  rw [e2, e4] at t2
  linarith [sub_mul (p / (U j - x) ^ 2) (q / (x - L j) ^ 2) (y - x)]

section
variable {n m : ℕ} {o : MMA n m} {xk dfdx : Fin n → ℝ} {g : Fin m → ℝ} {dgdx : Fin m → Fin n → ℝ}

theorem mmaP_nonneg (h : ∀ j, o.xmin j < o.xmax j) (hr : 0 ≤ o.raa0) (df : ℝ) (j : Fin n) :
    0 ≤ mmaP o xk df j := by
  have := h j
  have h1 : 0 ≤ o.raa0 / (o.xmax j - o.xmin j) := div_nonneg hr (by linarith)
  have h2 := le_max_right df 0
  have h3 := le_max_right (-df) 0
  unfold mmaP
  refine mul_nonneg (sq_nonneg _) ?_
  norm_num; linarith

theorem mmaQ_nonneg (h : ∀ j, o.xmin j < o.xmax j) (hr : 0 ≤ o.raa0) (df : ℝ) (j : Fin n) :
    0 ≤ mmaQ o xk df j := by
  have := h j
  have h1 : 0 ≤ o.raa0 / (o.xmax j - o.xmin j) := div_nonneg hr (by linarith)
  have h2 := le_max_right df 0
  have h3 := le_max_right (-df) 0
  unfold mmaQ
  refine mul_nonneg (sq_nonneg _) ?_
  norm_num; linarith

/-- The bounds of MMA are strictly between the asymptotes when `albefa` is positive. -/
theorem mma_strict (h : MMAOk o xk) (ha : 0 < o.albefa) (j : Fin n) :
    asyL o xk j < mmaAlpha o xk j ∧ mmaBeta o xk j < asyU o xk j := by
  obtain ⟨_, h2, h3, _⟩ := asy_bounds (o := o) (xk := xk) h.box j
  have hr := h.box j
  norm_num at h2 h3
  have a3 : 0 < o.albefa * (xk j - asyL o xk j) := mul_pos ha (by linarith)
  have a4 : 0 < o.albefa * (asyU o xk j - xk j) := mul_pos ha (by linarith)
  unfold mmaAlpha mmaBeta
  exact ⟨lt_of_lt_of_le (by linarith) (le_max_of_le_left (le_max_right _ _)),
    lt_of_le_of_lt (min_le_of_left_le (min_le_right _ _)) (by linarith)⟩

theorem mma_good (h : MMAOk o xk) (ha : 0 < o.albefa) (hr : 0 ≤ o.raa0) (hd : ∀ i, 0 ≤ o.d i) {P : Sub n m}
    (hP : mmaSub o xk dfdx g dgdx = some P) : GoodSub P ∧ ∀ j, P.alpha j < P.beta j := by
  obtain ⟨e1, e2, e3, e4, e5, e6, e7, e8, e9, e10, e11, e12⟩ := mmaSub_eq_some hP
  have hs := mma_strict h ha
  have hab := mma_alpha_lt h
  refine ⟨?_, fun j => by rw [e2, e3]; exact (hab j).1⟩
  constructor
  · rw [e1, e2, e3]; intro j x h1 h2
    have := hs j
    exact ⟨by linarith, by linarith⟩
  · rw [e1, e2, e3]; intro j p q x hp hq h1 h2
    have := hs j
    have u : 0 < asyU o xk j - x := by linarith
    have l : 0 < x - asyL o xk j := by linarith
    simp only [mmaBasis]; positivity
  · rw [e1, e2, e3]; intro j p q x h1 h2
    have := hs j
    exact mmaBasis_deriv1 p q (by linarith) (by linarith)
  · rw [e1, e2, e3]; intro j p q x h1 h2
    have := hs j
    exact mmaBasis_deriv2 p q (by linarith) (by linarith)
  · rw [e1, e2, e3]; intro j p q x y hp hq h1 h2 h3 h4
    have := hs j
    exact mmaBasis_tangent hp hq (by linarith) (by linarith) (by linarith) (by linarith)
  · rw [e1]; intro j p q p' q' t x; simp only [mmaBasis]; ring
  · rw [e1]; intro j p q p' q' t x; simp only [mmaBasis]; ring
  · rw [e1]; intro j p q p' q' t x; simp only [mmaBasis]; ring
  · rw [e4]; exact fun j => mmaP_nonneg h.box hr _ j
  · rw [e5]; exact fun j => mmaQ_nonneg h.box hr _ j
  · rw [e6]; exact fun i j => mmaP_nonneg h.box hr _ j
  · rw [e7]; exact fun i j => mmaQ_nonneg h.box hr _ j
  · rw [e12]; exact hd

end

/-! ### The approximations of MMA (C49) -/

section
variable {n m : ℕ} {o : MMA n m} {xk dfdx : Fin n → ℝ} {g : Fin m → ℝ} {dgdx : Fin m → Fin n → ℝ}

/-- The approximate objective that the inner loop minimises (up to a constant). -/
noncomputable def approxF {n m : ℕ} (P : Sub n m) (x : Fin n → ℝ) : ℝ := ∑ j, P.basis.val j (P.p0 j) (P.q0 j) (x j)

/-- The approximate constraint that the inner loop makes nonpositive. -/
noncomputable def approxG {n m : ℕ} (P : Sub n m) (i : Fin m) (x : Fin n → ℝ) : ℝ :=
  (∑ j, P.basis.val j (P.p i j) (P.q i j) (x j)) - P.b i

theorem mma_slope (h : ∀ j, o.xmin j < o.xmax j) (df : ℝ) (j : Fin n) :
    (mmaBasis (asyL o xk) (asyU o xk)).slope j (mmaP o xk df j) (mmaQ o xk df j) (xk j) = df := by
  obtain ⟨_, h2, h3, _⟩ := asy_bounds (o := o) (xk := xk) h j
  have hr := h j
  norm_num at h2 h3
  have u : asyU o xk j - xk j ≠ 0 := by linarith
  have l : xk j - asyL o xk j ≠ 0 := by linarith
  have hm : max df 0 - max (-df) 0 = df := by
    rcases le_total 0 df with h0 | h0
    · rw [max_eq_left h0, max_eq_right (by linarith)]; ring
    · rw [max_eq_right h0, max_eq_left (by linarith)]; ring
  simp only [mmaBasis, mmaP, mmaQ]
  rw [mul_div_cancel_left₀ _ (pow_ne_zero 2 u), mul_div_cancel_left₀ _ (pow_ne_zero 2 l)]
  norm_num
  linarith

/-- **C49 (value)**: at the current design the approximate constraints have the values of the
constraints. -/
theorem C49_value {P : Sub n m} (hP : mmaSub o xk dfdx g dgdx = some P) (i : Fin m) : approxG P i xk = g i := by
  obtain ⟨e1, e2, e3, e4, e5, e6, e7, e8, _⟩ := mmaSub_eq_some hP
  unfold approxG
  rw [e1, e6, e7, e8]
  simp only [mmaBasis]
  ring

theorem sum_deriv {P : Sub n m} (hP : mmaSub o xk dfdx g dgdx = some P) (h : ∀ j, o.xmin j < o.xmax j)
    (df v : Fin n → ℝ) : HasDerivAt (fun t : ℝ => ∑ j, P.basis.val j (mmaP o xk (df j) j) (mmaQ o xk (df j) j)
      (xk j + t * v j)) (∑ j, df j * v j) 0 := by
  obtain ⟨e1, _⟩ := mmaSub_eq_some hP
  rw [e1]
  refine HasDerivAt.fun_sum fun j _ => ?_
  obtain ⟨_, h2, h3, _⟩ := asy_bounds (o := o) (xk := xk) h j
  have hr := h j
  norm_num at h2 h3
  have d1 : HasDerivAt (fun t : ℝ => xk j + t * v j) (v j) 0 := by
    have := ((hasDerivAt_id (0 : ℝ)).mul_const (v j)).const_add (xk j)
    rwa [one_mul] at this
  have d2 := mmaBasis_deriv1 (L := asyL o xk) (U := asyU o xk) (j := j) (x := xk j)
    (mmaP o xk (df j) j) (mmaQ o xk (df j) j) (by linarith) (by linarith)
  rw [mma_slope h] at d2
  have e0 : xk j + 0 * v j = xk j := by ring
  rw [← e0] at d2
  exact d2.comp 0 d1

/-- **C49 (gradients)**: at the current design the approximate objective and the approximate constraints
have the given derivatives, in every direction. -/
theorem C49_gradient {P : Sub n m} (hP : mmaSub o xk dfdx g dgdx = some P) (h : ∀ j, o.xmin j < o.xmax j)
    (v : Fin n → ℝ) :
    HasDerivAt (fun t : ℝ => approxF P fun j => xk j + t * v j) (∑ j, dfdx j * v j) 0 ∧
      ∀ i, HasDerivAt (fun t : ℝ => approxG P i fun j => xk j + t * v j) (∑ j, dgdx i j * v j) 0 := by
  obtain ⟨e1, e2, e3, e4, e5, e6, e7, e8, _⟩ := mmaSub_eq_some hP
  refine ⟨?_, fun i => ?_⟩
  · unfold approxF
    rw [e4, e5]
    exact sum_deriv hP h dfdx v
  · unfold approxG
    rw [e6, e7]
    exact (sum_deriv hP h (dgdx i) v).sub_const _

/-- Convexity from tangents below. -/
theorem convex_of_tangent {V F : ℝ → ℝ} {x y s t : ℝ} {l u : ℝ}
    (h : ∀ x y, l < x → x < u → l < y → y < u → V x + F x * (y - x) ≤ V y) (hx : l < x) (hx' : x < u) (hy : l < y)
    (hy' : y < u) (hs : 0 ≤ s) (ht : 0 ≤ t) (hst : s + t = 1) : V (s * x + t * y) ≤ s * V x + t * V y := by
  have hz : l < s * x + t * y ∧ s * x + t * y < u := by
    have : t = 1 - s := by linarith
    subst this
    rcases eq_or_lt_of_le hs with rfl | hs'
    · constructor <;> linarith
    · constructor <;> nlinarith
  have h1 := mul_le_mul_of_nonneg_left (h _ x hz.1 hz.2 hx hx') hs
  have h2 := mul_le_mul_of_nonneg_left (h _ y hz.1 hz.2 hy hy') ht
  have : s * (V (s * x + t * y) + F (s * x + t * y) * (x - (s * x + t * y))) +
      t * (V (s * x + t * y) + F (s * x + t * y) * (y - (s * x + t * y))) =
      (s + t) * V (s * x + t * y) + F (s * x + t * y) * ((s * x + t * y) - (s + t) * (s * x + t * y)) := by ring
  rw [hst] at this
  have e : (1 : ℝ) * V (s * x + t * y) + F (s * x + t * y) * ((s * x + t * y) - 1 * (s * x + t * y)) =
    V (s * x + t * y) := by ring
  linarith

/-- The designs between the asymptotes. -/
def Between (L U x : Fin n → ℝ) : Prop := ∀ j, L j < x j ∧ x j < U j

/-- **C49 (convexity)**: the approximations are convex between the asymptotes. -/
theorem C49_convex {P : Sub n m} (hP : mmaSub o xk dfdx g dgdx = some P) (h : ∀ j, o.xmin j < o.xmax j)
    (hr : 0 ≤ o.raa0) {x y : Fin n → ℝ} (hx : Between (asyL o xk) (asyU o xk) x)
    (hy : Between (asyL o xk) (asyU o xk) y) {s t : ℝ} (hs : 0 ≤ s) (ht : 0 ≤ t) (hst : s + t = 1) :
    approxF P (fun j => s * x j + t * y j) ≤ s * approxF P x + t * approxF P y ∧
      ∀ i, approxG P i (fun j => s * x j + t * y j) ≤ s * approxG P i x + t * approxG P i y := by
  obtain ⟨e1, e2, e3, e4, e5, e6, e7, e8, _⟩ := mmaSub_eq_some hP
  have key : ∀ (df : Fin n → ℝ), ∑ j, P.basis.val j (mmaP o xk (df j) j) (mmaQ o xk (df j) j) (s * x j + t * y j) ≤
      s * ∑ j, P.basis.val j (mmaP o xk (df j) j) (mmaQ o xk (df j) j) (x j) +
      t * ∑ j, P.basis.val j (mmaP o xk (df j) j) (mmaQ o xk (df j) j) (y j) := by
    intro df
    rw [Finset.mul_sum, Finset.mul_sum, ← Finset.sum_add_distrib, e1]
    refine Finset.sum_le_sum fun j _ => ?_
    exact convex_of_tangent (l := asyL o xk j) (u := asyU o xk j) (fun a b ha ha' hb hb' =>
      mmaBasis_tangent (mmaP_nonneg h hr _ j) (mmaQ_nonneg h hr _ j) ha ha' hb hb')
      (hx j).1 (hx j).2 (hy j).1 (hy j).2 hs ht hst
  refine ⟨?_, fun i => ?_⟩
  · unfold approxF; rw [e4, e5]; exact key dfdx
  · unfold approxG; rw [e6, e7]
    have := key (dgdx i)
    have e : P.b i = s * P.b i + t * P.b i := by rw [← add_mul, hst, one_mul]
    dsimp only
    linarith

end

/-! ### CONLIN (C51) -/

section
variable {n m : ℕ} {o : CONLIN n m} {xk dfdx : Fin n → ℝ} {g : Fin m → ℝ} {dgdx : Fin m → Fin n → ℝ}

/-- The parameters are sensible and the design is in the box. -/
structure CONLINOk (o : CONLIN n m) (xk : Fin n → ℝ) : Prop where
  box : ∀ j, o.xmin j < o.xmax j
  lower : ∀ j, o.xmin j ≤ xk j
  upper : ∀ j, xk j ≤ o.xmax j
  move : 0 < o.move

theorem conlinSub_eq_some {P : Sub n m} (h : conlinSub o xk dfdx g dgdx = some P) :
    P.basis = conlinBasis n ∧ P.alpha = (fun j => max (o.xmin j) (xk j - o.move * (o.xmax j - o.xmin j))) ∧
      P.beta = (fun j => min (o.xmax j) (xk j + o.move * (o.xmax j - o.xmin j))) ∧
      P.p0 = (fun j => conlinP (dfdx j)) ∧ P.q0 = (fun j => conlinQ (dfdx j) (xk j)) ∧
      P.p = (fun i j => conlinP (dgdx i j)) ∧ P.q = (fun i j => conlinQ (dgdx i j) (xk j)) ∧
      P.b = (fun i => -g i + ∑ j, (conlinP (dgdx i j) * xk j + conlinQ (dgdx i j) (xk j) / xk j)) ∧
      P.a0 = o.a0 ∧ P.a = o.a ∧ P.c = o.c ∧ P.d = o.d := by
  unfold conlinSub at h
  by_cases hc : ∀ (_i : Fin m) (j : Fin n), xk j ≠ 0
  · rw [if_pos hc] at h
    rw [← Option.some.inj h]
    exact ⟨rfl, rfl, rfl, rfl, rfl, rfl, rfl, rfl, rfl, rfl, rfl, rfl⟩
  · rw [if_neg hc] at h; exact nomatch h

theorem conlin_alpha_lt (h : CONLINOk o xk) (j : Fin n) :
    max (o.xmin j) (xk j - o.move * (o.xmax j - o.xmin j)) <
      min (o.xmax j) (xk j + o.move * (o.xmax j - o.xmin j)) := by
  have hr := h.box j
  have hl := h.lower j
  have hu := h.upper j
  have hm := mul_pos h.move (sub_pos.2 hr)
  exact max_lt (lt_min hr (by linarith)) (lt_min (by linarith) (by linarith))

theorem conlinUpdate_done {fuel : ℕ} {f : ℝ} {r : (Fin n → ℝ) × CONLIN n m}
    (h : conlinUpdate o fuel xk f dfdx g dgdx = .done r) : ∃ P st, conlinSub o xk dfdx g dgdx = some P ∧
      ipSolve P fuel = .done st ∧ r.1 = st.1.x ∧ r.2 = { o with previousvalue := f, k := o.k + 1 } := by
  unfold conlinUpdate at h
  cases hs : conlinSub o xk dfdx g dgdx with
  | none => rw [hs] at h; exact nomatch h
  | some P =>
    simp only [hs] at h
    cases hl : ipSolve P fuel with
    | undefined => simp only [hl] at h; exact nomatch h
    | running => simp only [hl] at h; exact nomatch h
    | done st =>
      simp only [hl] at h
      rw [← Run.done.inj h]
      exact ⟨P, st, rfl, hl, rfl, rfl⟩

/-- **C51 (all passes)**: after any number of passes of the inner loop of CONLIN the variables are strictly
inside their bounds and slacks and multipliers are positive. -/
theorem C51_passes (h : CONLINOk o xk) {P : Sub n m} (hP : conlinSub o xk dfdx g dgdx = some P) (k : ℕ)
    {st : Pt n m × ℝ} (hk : ipPasses P k = some st) : Inside P st.1 := by
  obtain ⟨_, ha, hb, _⟩ := conlinSub_eq_some hP
  exact C48_passes (fun j => by rw [ha, hb]; exact conlin_alpha_lt h j) k hk

/-- **C51**: the new design of `CONLIN::UpdateVariables` lies strictly inside the box and the move
limit. -/
theorem C51_conlin (h : CONLINOk o xk) {fuel : ℕ} {f : ℝ} {x' : Fin n → ℝ} {o' : CONLIN n m}
    (hr : conlinUpdate o fuel xk f dfdx g dgdx = .done (x', o')) (j : Fin n) :
    (o.xmin j < x' j ∧ x' j < o.xmax j) ∧ |x' j - xk j| < o.move * (o.xmax j - o.xmin j) := by
  obtain ⟨P, st, hP, hs, hx, ho⟩ := conlinUpdate_done hr
  dsimp only at hx ho
  obtain ⟨_, ha, hb, _⟩ := conlinSub_eq_some hP
  have hin := (C48_inner (P := P) (fun j => by rw [ha, hb]; exact conlin_alpha_lt h j) hs).1 j
  rw [ha, hb, ← hx] at hin
  obtain ⟨h1, h2, _⟩ := hin
  have c1 := le_max_left (o.xmin j) (xk j - o.move * (o.xmax j - o.xmin j))
  have c2 := le_max_right (o.xmin j) (xk j - o.move * (o.xmax j - o.xmin j))
  have c3 := min_le_left (o.xmax j) (xk j + o.move * (o.xmax j - o.xmin j))
  have c4 := min_le_right (o.xmax j) (xk j + o.move * (o.xmax j - o.xmin j))
  exact ⟨⟨by linarith, by linarith⟩, abs_lt.2 ⟨by linarith, by linarith⟩⟩

/-- The data of the calls and any number of calls. -/
inductive CONLINCalls : CONLIN n m → (Fin n → ℝ) → CONLIN n m → (Fin n → ℝ) → Prop
  | nil (o x) : CONLINCalls o x o x
  | cons {o x o1 x1 o2 x2} (c : MMACall n m)
      (h : conlinUpdate o c.1 x c.2.1 c.2.2.1 c.2.2.2.1 c.2.2.2.2 = .done (x1, o1))
      (t : CONLINCalls o1 x1 o2 x2) : CONLINCalls o x o2 x2

/-- **C51 (all calls)**: over any sequence of calls the design stays in the box. -/
theorem C51_calls {o o' : CONLIN n m} {x x' : Fin n → ℝ} (h : CONLINOk o x) (hc : CONLINCalls o x o' x') :
    ∀ j, o.xmin j ≤ x' j ∧ x' j ≤ o.xmax j := by
  induction hc with
  | nil o x => exact fun j => ⟨h.lower j, h.upper j⟩
  | cons c hr t ih =>
    have hb := C51_conlin h hr
    obtain ⟨P, st, hP, hs, hx, ho⟩ := conlinUpdate_done hr
    dsimp only at ho
    subst ho
    exact ih ⟨h.box, fun j => (hb j).1.1.le, fun j => (hb j).1.2.le, h.move⟩

theorem conlin_good (h : CONLINOk o xk) (h0 : ∀ j, 0 < o.xmin j) (hd : ∀ i, 0 ≤ o.d i) {P : Sub n m}
    (hP : conlinSub o xk dfdx g dgdx = some P) : GoodSub P ∧ ∀ j, P.alpha j < P.beta j := by
  obtain ⟨e1, e2, e3, e4, e5, e6, e7, e8, e9, e10, e11, e12⟩ := conlinSub_eq_some hP
  have hpos : ∀ j, 0 < P.alpha j := fun j => by rw [e2]; exact lt_of_lt_of_le (h0 j) (le_max_left _ _)
  have hP' : ∀ df, 0 ≤ conlinP df := fun df => le_max_right _ _
  have hQ' : ∀ df x, 0 ≤ conlinQ df x := fun df x => mul_nonneg (le_max_right _ _) (sq_nonneg _)
  refine ⟨?_, fun j => by rw [e2, e3]; exact conlin_alpha_lt h j⟩
  constructor
  · rw [e1]; intro j x h1 h2
    have := hpos j
    exact (by linarith : (0 : ℝ) < x).ne'
  · rw [e1]; intro j p q x hp hq h1 h2
    have := hpos j
    have hx : 0 < x := by linarith
    simp only [conlinBasis]; positivity
  · rw [e1]; intro j p q x h1 h2
    have := hpos j
    have hx : 0 < x := by linarith
    have d1 := ((hasDerivAt_id x).const_mul p).add (((hasDerivAt_id x).inv hx.ne').const_mul q)
    refine (d1.congr_deriv ?_).congr_of_eventuallyEq (Filter.Eventually.of_forall fun y => ?_)
    · simp only [conlinBasis, id]; field_simp; ring
    · simp only [conlinBasis, Pi.add_apply, Pi.inv_apply, id, div_eq_mul_inv]
  · rw [e1]; intro j p q x h1 h2
    have := hpos j
    have hx : 0 < x := by linarith
    have d1 := ((((hasDerivAt_id x).pow 2).inv (pow_ne_zero 2 hx.ne')).const_mul q).const_sub p
    refine (d1.congr_deriv ?_).congr_of_eventuallyEq (Filter.Eventually.of_forall fun y => ?_)
    · simp only [conlinBasis, id, Pi.pow_apply]; field_simp; ring
    · simp only [conlinBasis, Pi.inv_apply, Pi.pow_apply, id, div_eq_mul_inv]
  · rw [e1]; intro j p q x y hp hq h1 h2 h3 h4
    have := hpos j
    have t2 := mul_le_mul_of_nonneg_left (inv_tangent (a := x) (b := y) (by linarith) (by linarith)) hq
    simp only [conlinBasis]
    have e2 : q * (1 / x + (x - y) / x ^ 2) = q / x - q / x ^ 2 * (y - x) := by ring
    have e4 : q * (1 / y) = q / y := by ring
    rw [e2, e4] at t2
    linarith [sub_mul p (q / x ^ 2) (y - x), mul_sub p y x]
  · rw [e1]; intro j p q p' q' t x; simp only [conlinBasis]; ring
  · rw [e1]; intro j p q p' q' t x; simp only [conlinBasis]; ring
  · rw [e1]; intro j p q p' q' t x; simp only [conlinBasis]; ring
  · rw [e4]; exact fun j => hP' _
  · rw [e5]; exact fun j => hQ' _ _
  · rw [e6]; exact fun i j => hP' _
  · rw [e7]; exact fun i j => hQ' _ _
  · rw [e12]; exact hd

end

end Pansfem
