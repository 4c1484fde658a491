/-
Lemmas lifting the single-step facts of the iterative solvers to whole runs.
-/
import Verif.Lemmas.Krylov

namespace Pansfem

variable {n : ℕ}

theorem iterM_inv {S : Type} (f : S → Option S) (P : S → Prop)
    (hf : ∀ s t, P s → f s = some t → P t) {k : ℕ} {s t : S} (h0 : P s)
    (h : iterM f k s = some t) : P t := by
  induction k generalizing t with
  | zero => rwa [← Option.some.inj h]
  | succ k ih =>
    obtain ⟨u, hu, ht⟩ := Option.bind_eq_some_iff.1 h
    exact hf u t (ih hu) ht

/-- Earlier states of a defined run are defined. -/
theorem iterM_prefix {S : Type} (f : S → Option S) {k j : ℕ} (hj : j ≤ k) {s t : S}
    (h : iterM f k s = some t) : ∃ u, iterM f j s = some u := by
  induction k generalizing t with
  | zero => exact ⟨s, by rw [show j = 0 by omega]; rfl⟩
  | succ k ih =>
    rcases Nat.lt_or_ge j (k + 1) with hlt | hge
    · obtain ⟨u, hu, -⟩ := Option.bind_eq_some_iff.1 h
      exact ih (by omega) hu
    · exact ⟨t, by rw [show j = k + 1 by omega]; exact h⟩

theorem pcgInit_eq {A : CSR ℝ} {K : Matrix (Fin n) (Fin n) ℝ} (hA : IsCSR n A K)
    (M : (Fin n → ℝ) → Option (Fin n → ℝ)) (b : Fin n → ℝ) :
    pcgInit A M b = (M b).map fun p => ⟨0, b, p, p ⬝ᵥ b⟩ := by
  unfold pcgInit
  simp only [csrMul_eq hA, Option.bind_eq_bind, Option.bind_some, Matrix.mulVec_zero, sub_zero]
  cases M b <;> rfl

theorem cgInit_eq {A : CSR ℝ} {K : Matrix (Fin n) (Fin n) ℝ} (hA : IsCSR n A K)
    (b : Fin n → ℝ) : cgInit A b = some ⟨0, b, b, b ⬝ᵥ b⟩ := by
  unfold cgInit
  simp [csrMul_eq hA]

theorem biInit_eq {A : CSR ℝ} {K : Matrix (Fin n) (Fin n) ℝ} (hA : IsCSR n A K)
    (b : Fin n → ℝ) : biInit A b = some ⟨0, b, b, b, b ⬝ᵥ b⟩ := by
  unfold biInit
  simp [csrMul_eq hA]

theorem bi2Init_eq {A : CSR ℝ} {K : Matrix (Fin n) (Fin n) ℝ} (hA : IsCSR n A K)
    (b : Fin n → ℝ) : bi2Init A b = some ⟨0, b, b, 0, 0, 0, 0, 0, 0, b ⬝ᵥ b⟩ := by
  unfold bi2Init
  simp [csrMul_eq hA]

/-- Without preconditioner the two texts coincide. -/
theorem cgStep_eq_pcgStep (A : CSR ℝ) (s : CGState n) : cgStep A s = pcgStep A some s := by
  unfold cgStep pcgStep
  simp

/-! ### Flags -/

theorem pcgLoop_flag {A : CSR ℝ} {K : Matrix (Fin n) (Fin n) ℝ} (hA : IsCSR n A K)
    (M : (Fin n → ℝ) → Option (Fin n → ℝ)) (b : Fin n → ℝ) (eps bn : ℝ) (m : ℕ) {s : CGState n}
    (hs : s.r = b - K.mulVec s.x) {x : Fin n → ℝ} {f : Bool} (hm : 0 < m)
    (h : pcgLoop A M eps bn m s = some (x, f)) :
    f = true ↔ vnorm (b - K.mulVec x) < eps * bn := by
  induction m generalizing s with
  | zero => omega
  | succ m ih =>
    obtain ⟨t, ht, h⟩ := Option.bind_eq_some_iff.1 h
    have htr := pcgStep_residual hA M b hs ht
    split at h
    · next hlt =>
      obtain ⟨rfl, rfl⟩ := Prod.mk.inj (Option.some.inj h)
      rw [← htr]; simpa using hlt
    · next hge =>
      cases m with
      | zero =>
        obtain ⟨rfl, rfl⟩ := Prod.mk.inj (Option.some.inj h)
        rw [← htr]; simpa using hge
      | succ m => exact ih htr (by omega) h

theorem biLoop_flag {A : CSR ℝ} {K : Matrix (Fin n) (Fin n) ℝ} (hA : IsCSR n A K)
    (b : Fin n → ℝ) (eps bn : ℝ) (m : ℕ) {s : BiState n}
    (hs : s.r = b - K.mulVec s.x) {x : Fin n → ℝ} {f : Bool} (hm : 0 < m)
    (h : biLoop A eps bn m s = some (x, f)) :
    f = true ↔ vnorm (b - K.mulVec x) < eps * bn := by
  induction m generalizing s with
  | zero => omega
  | succ m ih =>
    obtain ⟨t, ht, h⟩ := Option.bind_eq_some_iff.1 h
    have htr := biStep_residual hA b hs ht
    split at h
    · next hlt =>
      obtain ⟨rfl, rfl⟩ := Prod.mk.inj (Option.some.inj h)
      rw [← htr]; simpa using hlt
    · next hge =>
      cases m with
      | zero =>
        obtain ⟨rfl, rfl⟩ := Prod.mk.inj (Option.some.inj h)
        rw [← htr]; simpa using hge
      | succ m => exact ih htr (by omega) h

theorem pbiLoop_flag {A : CSR ℝ} {K : Matrix (Fin n) (Fin n) ℝ} (hA : IsCSR n A K)
    (M : (Fin n → ℝ) → Option (Fin n → ℝ)) (b : Fin n → ℝ) (eps bn : ℝ) (m : ℕ) {s : BiState n}
    (hs : s.r = b - K.mulVec s.x) {x : Fin n → ℝ} {f : Bool} (hm : 0 < m)
    (h : pbiLoop A M eps bn m s = some (x, f)) :
    f = true ↔ vnorm (b - K.mulVec x) < eps * bn := by
  induction m generalizing s with
  | zero => omega
  | succ m ih =>
    obtain ⟨t, ht, h⟩ := Option.bind_eq_some_iff.1 h
    have htr := pbiStep_residual hA M b hs ht
    split at h
    · next hlt =>
      obtain ⟨rfl, rfl⟩ := Prod.mk.inj (Option.some.inj h)
      rw [← htr]; simpa using hlt
    · next hge =>
      cases m with
      | zero =>
        obtain ⟨rfl, rfl⟩ := Prod.mk.inj (Option.some.inj h)
        rw [← htr]; simpa using hge
      | succ m => exact ih htr (by omega) h

theorem bi2Loop_flag {A : CSR ℝ} {K : Matrix (Fin n) (Fin n) ℝ} (hA : IsCSR n A K)
    (b : Fin n → ℝ) (eps bn : ℝ) (m k : ℕ) {s : Bi2State n}
    (hs : Bi2Inv K b k s) {x : Fin n → ℝ} {f : Bool} (hm : 0 < m)
    (h : bi2Loop A eps bn m k s = some (x, f)) :
    f = true ↔ vnorm (b - K.mulVec x) < eps * bn := by
  induction m generalizing s k with
  | zero => omega
  | succ m ih =>
    obtain ⟨t, ht, h⟩ := Option.bind_eq_some_iff.1 h
    have hti := bi2Step_inv hA b hs ht
    have htr := hti.res
    split at h
    · next hlt =>
      obtain ⟨rfl, rfl⟩ := Prod.mk.inj (Option.some.inj h)
      rw [← htr]; simpa using hlt
    · next hge =>
      cases m with
      | zero =>
        obtain ⟨rfl, rfl⟩ := Prod.mk.inj (Option.some.inj h)
        rw [← htr]; simpa using hge
      | succ m => exact ih (k + 1) hti (by omega) h

/-- The loop of `CG` is the preconditioned loop without preconditioner. -/
theorem cgLoop_eq_pcgLoop (A : CSR ℝ) (eps bn : ℝ) (m : ℕ) (s : CGState n) :
    cgLoop A eps bn m s = pcgLoop A some eps bn m s := by
  induction m generalizing s with
  | zero => rfl
  | succ m ih =>
    simp only [cgLoop, pcgLoop, cgStep_eq_pcgStep, Option.bind_eq_bind]
    cases ht : pcgStep A some s with
    | none => rfl
    | some t =>
      simp only [Option.bind_some]
      have hrr : t.rr = t.r ⬝ᵥ t.r := by
        unfold pcgStep at ht
        simp only [Option.bind_eq_bind, Option.bind_eq_some_iff, Option.some.injEq] at ht
        obtain ⟨Ap, -, alpha, -, Mr, rfl, beta, -, ht⟩ := ht
        rw [← Option.some.inj ht]
      rw [hrr, ih]
      rfl

theorem cg_eq_pcg {A : CSR ℝ} (b : Fin n → ℝ) (m : ℕ) (eps : ℝ) :
    cg A b m eps = pcg A some b m eps := by
  unfold cg pcg cgInit pcgInit
  simp [cgLoop_eq_pcgLoop]

/-! ### Runs of preconditioned CG with a symmetric linear preconditioner -/

/-- One defined step written out. -/
theorem pcgStep_data {A : CSR ℝ} {K P : Matrix (Fin n) (Fin n) ℝ} (hA : IsCSR n A K)
    {M : (Fin n → ℝ) → Option (Fin n → ℝ)} (hM : ∀ v, M v = some (P.mulVec v))
    (s : CGState n) :
    (∀ t, pcgStep A M s = some t → s.p ⬝ᵥ K.mulVec s.p ≠ 0 ∧ s.rr ≠ 0 ∧
      t.r = s.r - (s.rr / (s.p ⬝ᵥ K.mulVec s.p)) • K.mulVec s.p ∧
      t.rr = t.r ⬝ᵥ P.mulVec t.r ∧ t.p = P.mulVec t.r + (t.rr / s.rr) • s.p) ∧
    (s.p ⬝ᵥ K.mulVec s.p ≠ 0 → s.rr ≠ 0 → ∃ t, pcgStep A M s = some t) := by
  unfold pcgStep
  simp only [csrMul_eq hA, hM, Option.bind_eq_bind, Option.bind_some]
  constructor
  · intro t ht
    obtain ⟨alpha, ha, ht⟩ := Option.bind_eq_some_iff.1 ht
    obtain ⟨beta, hb, ht⟩ := Option.bind_eq_some_iff.1 ht
    obtain ⟨ha1, ha2⟩ := sdivide_some ha
    obtain ⟨hb1, hb2⟩ := sdivide_some hb
    rw [← Option.some.inj ht]
    refine ⟨ha1, hb1, ?_, ?_, ?_⟩
    · simp only [ha2]; module
    · simp only; rw [dotProduct_comm]
    · simp only [hb2]; module
  · intro h1 h2
    rw [sdivide_eq h1, Option.bind_some, sdivide_eq h2, Option.bind_some]
    exact ⟨_, rfl⟩

/-- A defined run has a history. -/
theorem pcg_hist {A : CSR ℝ} {K P : Matrix (Fin n) (Fin n) ℝ} (hA : IsCSR n A K)
    (hK : ∀ i j, K i j = K j i) (hP : ∀ i j, P i j = P j i)
    {M : (Fin n → ℝ) → Option (Fin n → ℝ)} (hM : ∀ v, M v = some (P.mulVec v)) (s0 : CGState n)
    (h0 : s0.p = P.mulVec s0.r) (h0' : s0.rr = s0.r ⬝ᵥ P.mulVec s0.r) (k : ℕ) (t : CGState n)
    (ht : iterM (pcgStep A M) k s0 = some t) :
    ∃ r p : ℕ → Fin n → ℝ, PCGHist K P k r p ∧ (∀ i, i < k → r i ⬝ᵥ P.mulVec (r i) ≠ 0) ∧
      t.rr = t.r ⬝ᵥ P.mulVec t.r ∧
      ∀ i u, i ≤ k → iterM (pcgStep A M) i s0 = some u → r i = u.r ∧ p i = u.p := by
  induction k generalizing t with
  | zero =>
    refine ⟨fun _ => s0.r, fun _ => s0.p, ⟨h0, by simp, by simp, ?_, ?_, by simp, ?_⟩, by simp,
      ?_, ?_⟩
    · intro i j h1 h2; omega
    · intro i j h1 h2; omega
    · rw [h0, dotProduct_comm]
    · rw [← Option.some.inj ht]; exact h0'
    · intro i u hi hu
      rw [show i = 0 by omega] at hu
      rw [← Option.some.inj hu]; exact ⟨rfl, rfl⟩
  | succ k ih =>
    obtain ⟨s, hs, hst⟩ := Option.bind_eq_some_iff.1 ht
    obtain ⟨r, p, hh, hne, hrr, hu⟩ := ih s hs
    obtain ⟨hp0, hr0, hr', hrr', hp'⟩ := (pcgStep_data hA hM s).1 t hst
    obtain ⟨erk, epk⟩ := hu k s le_rfl hs
    let r1 : ℕ → Fin n → ℝ := fun i => if i = k + 1 then t.r else r i
    let p1 : ℕ → Fin n → ℝ := fun i => if i = k + 1 then t.p else p i
    have r1le : ∀ i, i ≤ k → r1 i = r i := fun i hi => by simp only [r1]; rw [if_neg (by omega)]
    have p1le : ∀ i, i ≤ k → p1 i = p i := fun i hi => by simp only [p1]; rw [if_neg (by omega)]
    have r1k : r1 (k + 1) = t.r := by simp [r1]
    have p1k : p1 (k + 1) = t.p := by simp [p1]
    have hh1 : PCGHist K P k r1 p1 := by
      refine ⟨?_, ?_, ?_, ?_, ?_, ?_, ?_⟩
      · rw [p1le 0 (by omega), r1le 0 (by omega)]; exact hh.p0
      · intro j hj
        rw [r1le _ (by omega), r1le _ (by omega), p1le _ (by omega)]; exact hh.rrec j hj
      · intro j hj
        rw [r1le _ (by omega), p1le _ (by omega), p1le _ (by omega)]; exact hh.prec j hj
      · intro i j hij hj
        rw [r1le _ (by omega), r1le _ (by omega)]; exact hh.orth i j hij hj
      · intro i j hij hj
        rw [p1le _ (by omega), p1le _ (by omega)]; exact hh.conj i j hij hj
      · intro i hi
        rw [r1le _ (by omega), p1le _ (by omega)]; exact hh.pr i hi
      · rw [r1le _ (by omega), p1le _ (by omega)]; exact hh.prk
    have hrk : r1 k = s.r := by rw [r1le k le_rfl, erk]
    have hpk : p1 k = s.p := by rw [p1le k le_rfl, epk]
    refine ⟨r1, p1, hh1.step hK hP ?_ ?_ ?_ ?_, ?_, hrr', ?_⟩
    · rw [hrk, ← hrr]; exact hr0
    · rw [hpk]; exact hp0
    · rw [hrk, hpk, r1k, ← hrr]; exact hr'
    · rw [hrk, hpk, r1k, p1k, ← hrr, ← hrr']; exact hp'
    · intro i hi
      rcases Nat.lt_succ_iff_lt_or_eq.1 hi with hlt | rfl
      · rw [r1le i (by omega)]; exact hne i hlt
      · rw [hrk, ← hrr]; exact hr0
    · intro i u hi hui
      rcases Nat.lt_or_ge i (k + 1) with hlt | hge
      · rw [r1le i (by omega), p1le i (by omega)]; exact hu i u (by omega) hui
      · have : i = k + 1 := by omega
        subst this
        rw [ht] at hui
        rw [← Option.some.inj hui, r1k, p1k]; exact ⟨rfl, rfl⟩

/-- With positive definite matrices the next step is defined while the residual is not zero. -/
theorem pcg_next {A : CSR ℝ} {K P : Matrix (Fin n) (Fin n) ℝ} (hA : IsCSR n A K)
    (hK : SPD K) (hP : SPD P)
    {M : (Fin n → ℝ) → Option (Fin n → ℝ)} (hM : ∀ v, M v = some (P.mulVec v)) (s0 : CGState n)
    (h0 : s0.p = P.mulVec s0.r) (h0' : s0.rr = s0.r ⬝ᵥ P.mulVec s0.r) (k : ℕ) (t : CGState n)
    (ht : iterM (pcgStep A M) k s0 = some t) (hr : t.r ≠ 0) :
    k < n ∧ ∃ u, pcgStep A M t = some u := by
  obtain ⟨r, p, hh, hne, hrr, hu⟩ := pcg_hist hA hK.1 hP.1 hM s0 h0 h0' k t ht
  obtain ⟨erk, epk⟩ := hu k t le_rfl ht
  have hpos : 0 < t.r ⬝ᵥ P.mulVec t.r := hP.2 _ hr
  have hp0 : t.p ≠ 0 := by
    intro e
    have := hh.prk
    rw [erk, epk, e, zero_dotProduct] at this
    exact hpos.ne this
  refine ⟨?_, (pcgStep_data hA hM t).2 (hK.2 _ hp0).ne' (by rw [hrr]; exact hpos.ne')⟩
  have := orth_bound hP.1 (k + 1) r (fun i j hij hj => hh.orth i j hij (by omega)) (by
    intro i hi
    rcases Nat.lt_succ_iff_lt_or_eq.1 hi with hlt | rfl
    · exact hne i hlt
    · rw [erk]; exact hpos.ne')
  omega

theorem vnorm_zero : vnorm (0 : Fin n → ℝ) = 0 := by simp [vnorm]

theorem vnorm_pos {v : Fin n → ℝ} (h : v ≠ 0) : 0 < vnorm v := by
  refine Real.sqrt_pos.2 (lt_of_le_of_ne ?_ fun e => h (dotProduct_self_eq_zero.1 e.symm))
  exact Finset.sum_nonneg fun i _ => mul_self_nonneg _

/-- The loop finishes through the convergence test. -/
theorem pcgLoop_converges {A : CSR ℝ} {K P : Matrix (Fin n) (Fin n) ℝ} (hA : IsCSR n A K)
    (hK : SPD K) (hP : SPD P)
    {M : (Fin n → ℝ) → Option (Fin n → ℝ)} (hM : ∀ v, M v = some (P.mulVec v)) (s0 : CGState n)
    (h0 : s0.p = P.mulVec s0.r) (h0' : s0.rr = s0.r ⬝ᵥ P.mulVec s0.r) (eps bn : ℝ)
    (heps : 0 < eps * bn) (m k : ℕ) (t : CGState n)
    (ht : iterM (pcgStep A M) k s0 = some t) (hr : t.r ≠ 0) :
    ∃ x f, pcgLoop A M eps bn m t = some (x, f) ∧ (n ≤ k + m → f = true) := by
  induction m generalizing k t with
  | zero =>
    have := (pcg_next hA hK hP hM s0 h0 h0' k t ht hr).1
    exact ⟨t.x, false, rfl, fun h => by omega⟩
  | succ m ih =>
    obtain ⟨-, u, hu⟩ := pcg_next hA hK hP hM s0 h0 h0' k t ht hr
    simp only [pcgLoop, hu, Option.bind_eq_bind, Option.bind_some]
    split
    · exact ⟨_, _, rfl, fun _ => rfl⟩
    · next hge =>
      have hur : u.r ≠ 0 := by
        intro e; rw [e, vnorm_zero] at hge; exact hge heps
      obtain ⟨x, f, hx, hf⟩ := ih (k + 1) u (by simp [iterM, ht, hu]) hur
      exact ⟨x, f, hx, fun h => hf (by omega)⟩

/-- The exact solution is reached within `n` steps. -/
theorem pcg_exact {A : CSR ℝ} {K P : Matrix (Fin n) (Fin n) ℝ} (hA : IsCSR n A K)
    (hK : SPD K) (hP : SPD P)
    {M : (Fin n → ℝ) → Option (Fin n → ℝ)} (hM : ∀ v, M v = some (P.mulVec v)) (s0 : CGState n)
    (h0 : s0.p = P.mulVec s0.r) (h0' : s0.rr = s0.r ⬝ᵥ P.mulVec s0.r) :
    ∃ k t, k ≤ n ∧ iterM (pcgStep A M) k s0 = some t ∧ t.r = 0 := by
  by_contra hcon
  push Not at hcon
  have : ∀ k, k ≤ n → ∃ t, iterM (pcgStep A M) k s0 = some t := by
    intro k
    induction k with
    | zero => exact fun _ => ⟨s0, rfl⟩
    | succ k ih =>
      intro hk
      obtain ⟨t, ht⟩ := ih (by omega)
      obtain ⟨-, u, hu⟩ := pcg_next hA hK hP hM s0 h0 h0' k t ht (hcon k t (by omega) ht)
      exact ⟨u, by simp [iterM, ht, hu]⟩
  obtain ⟨t, ht⟩ := this n le_rfl
  have := (pcg_next hA hK hP hM s0 h0 h0' n t ht (hcon n t le_rfl ht)).1
  omega

end Pansfem
