/-
Helper lemmas for the Lanczos process and the tridiagonal problem.
-/
import Verif.Model.Lanczos
import Verif.Lemmas.Loops
import Verif.Lemmas.KrylovLoops

namespace Pansfem

variable {n : ℕ}

theorem vdiv_some {v w : Fin n → ℝ} {a : ℝ} (h : vdiv v a = some w) (hn : n ≠ 0) :
    a ≠ 0 ∧ w = a⁻¹ • v := by
  unfold vdiv at h
  split at h
  · cases h
  · rename_i hc
    refine ⟨fun e => hc ⟨e, hn⟩, ?_⟩
    rw [← Option.some.inj h]
    funext i
    simp [div_eq_inv_mul]

theorem storeNext_some {m k : ℕ} {q q' : ℕ → Fin n → ℝ} {p : Fin n → ℝ} {b : ℝ}
    (h : storeNext m k q p b = some q') (hn : n ≠ 0) :
    (∀ j ≤ k, q' j = q j) ∧ (k ≠ m - 1 → b ≠ 0 ∧ q' (k + 1) = b⁻¹ • p) := by
  unfold storeNext at h
  split at h
  · obtain ⟨v, hv, rfl⟩ := Option.map_eq_some_iff.1 h
    obtain ⟨h1, h2⟩ := vdiv_some hv hn
    exact ⟨fun j hj => upd1_ne _ _ (by omega), fun _ => ⟨h1, by rw [upd1_self, h2]⟩⟩
  · rename_i hc
    obtain rfl := Option.some.inj h
    exact ⟨fun _ _ => rfl, fun h => absurd h hc⟩

/-- The term of the previous vector. -/
noncomputable def prevTerm (s : LanState n) (j : ℕ) : Fin n → ℝ :=
  if j = 0 then 0 else s.beta (j - 1) • s.q (j - 1)

/-- What step `j` has left behind. -/
def LanRow (op : (Fin n → ℝ) → Option (Fin n → ℝ)) (m : ℕ) (s : LanState n) (j : ℕ) : Prop :=
  ∃ w p, op (s.q j) = some w ∧ w = prevTerm s j + s.alpha j • s.q j + p ∧
    s.alpha j = s.q j ⬝ᵥ (w - prevTerm s j) ∧ s.beta j = vnorm p ∧
    (j ≠ m - 1 → s.beta j ≠ 0 ∧ s.q (j + 1) = (s.beta j)⁻¹ • p)

/-- Invariant of the process. -/
def LanInv (op : (Fin n → ℝ) → Option (Fin n → ℝ)) (m : ℕ) (q0 : Fin n → ℝ) (k : ℕ)
    (s : LanState n) : Prop :=
  s.q 0 = q0 ∧ ∀ j < k, LanRow op m s j

theorem lanStep_inv (op : (Fin n → ℝ) → Option (Fin n → ℝ)) {m k : ℕ} (hn : n ≠ 0)
    {q0 : Fin n → ℝ} {s t : LanState n} (hs : LanInv op m q0 k s)
    (h : lanStep op m k s = some t) : LanInv op m q0 (k + 1) t := by
  unfold lanStep at h
  simp only [Option.bind_eq_bind, Option.bind_eq_some_iff] at h
  obtain ⟨w, hw, q', hq', h⟩ := h
  obtain rfl := Option.some.inj h
  obtain ⟨hq1, hq2⟩ := storeNext_some hq' hn
  refine ⟨by simp only [hq1 0 (Nat.zero_le _)]; exact hs.1, ?_⟩
  have hprev : ∀ j ≤ k, ∀ a b,
      prevTerm (⟨q', upd1 s.alpha k a, upd1 s.beta k b⟩ : LanState n) j = prevTerm s j := by
    intro j hj a b
    unfold prevTerm
    split
    · rfl
    · simp only; rw [upd1_ne _ _ (by omega), hq1 _ (by omega)]
  intro j hj
  rcases Nat.lt_succ_iff_lt_or_eq.1 hj with hj | rfl
  · obtain ⟨w, p, h1, h2, h3, h4, h5⟩ := hs.2 j hj
    have e1 := hprev j (by omega)
    refine ⟨w, p, ?_, ?_, ?_, ?_, ?_⟩
    · simp only [hq1 j hj.le]; exact h1
    · rw [e1]; simp only [upd1_ne _ _ hj.ne, hq1 j hj.le]; exact h2
    · rw [e1]; simp only [upd1_ne _ _ hj.ne, hq1 j hj.le]; exact h3
    · simp only [upd1_ne _ _ hj.ne]; exact h4
    · intro hm
      simp only [upd1_ne _ _ hj.ne, hq1 (j + 1) (by omega)]
      exact h5 hm
  · have e1 := hprev j le_rfl
    have e2 : (if j ≠ 0 then w + -s.beta (j - 1) • s.q (j - 1) else w) = w - prevTerm s j := by
      unfold prevTerm
      by_cases h0 : j = 0
      · simp [h0]
      · rw [if_pos h0, if_neg h0, neg_smul, sub_eq_add_neg]
    simp only [e2] at e1 hq2 ⊢
    refine ⟨w, (w - prevTerm s j) + -(s.q j ⬝ᵥ (w - prevTerm s j)) • s.q j, ?_, ?_, ?_, ?_, ?_⟩
    · simp only [hq1 j le_rfl]; exact hw
    · rw [e1]; simp only [upd1_self, hq1 j le_rfl]; module
    · rw [e1]; simp only [upd1_self, hq1 j le_rfl]
    · simp only [upd1_self]
    · intro hm
      simp only [upd1_self]
      exact hq2 hm

theorem lanczos_inv (op : (Fin n → ℝ) → Option (Fin n → ℝ)) {m : ℕ} (hn : n ≠ 0)
    {d : Fin n → ℝ} {s : LanState n} (h : lanczos op d m = some s) :
    vnorm d ≠ 0 ∧ LanInv op m ((vnorm d)⁻¹ • d) m s := by
  unfold lanczos at h
  obtain ⟨q0, hq0, h⟩ := Option.bind_eq_some_iff.1 h
  obtain ⟨h1, rfl⟩ := vdiv_some hq0 hn
  refine ⟨h1, forUpM_inv (Nat.zero_le m) _ _ _ (fun k s => LanInv op m ((vnorm d)⁻¹ • d) k s)
    ⟨by simp, fun j hj => absurd hj (Nat.not_lt_zero _)⟩
    (fun i u v _ _ hu hv => lanStep_inv op hn hu hv) h⟩

theorem vnorm_sq (v : Fin n → ℝ) : vnorm v * vnorm v = v ⬝ᵥ v :=
  Real.mul_self_sqrt (Finset.sum_nonneg fun i _ => mul_self_nonneg _)

theorem unit_self {v : Fin n → ℝ} (h : vnorm v ≠ 0) :
    ((vnorm v)⁻¹ • v) ⬝ᵥ ((vnorm v)⁻¹ • v) = 1 := by
  rw [smul_dotProduct, dotProduct_smul, ← vnorm_sq, smul_eq_mul, smul_eq_mul]
  field_simp

/-- The vectors of the process with a symmetric matrix are orthonormal. -/
theorem lan_orth {K : Matrix (Fin n) (Fin n) ℝ} (hK : ∀ i j, K i j = K j i)
    {op : (Fin n → ℝ) → Option (Fin n → ℝ)} (hop : ∀ v, op v = some (K.mulVec v)) {m : ℕ}
    {q0 : Fin n → ℝ} (h0 : q0 ⬝ᵥ q0 = 1) {s : LanState n} {k : ℕ} (hk : k < m)
    (hs : LanInv op m q0 k s) :
    ∀ i j, i ≤ k → j ≤ k → s.q i ⬝ᵥ s.q j = if i = j then 1 else 0 := by
  induction k with
  | zero =>
    intro i j hi hj
    obtain rfl : i = 0 := by omega
    obtain rfl : j = 0 := by omega
    rw [hs.1, h0]; rfl
  | succ k ih =>
    have ih := ih (by omega) ⟨hs.1, fun j hj => hs.2 j (by omega)⟩
    obtain ⟨w, p, h1, h2, h3, h4, h5⟩ := hs.2 k (by omega)
    rw [hop] at h1
    have h1 := (Option.some.inj h1).symm
    obtain ⟨h6, h7⟩ := h5 (by omega)
    have hp : p = K.mulVec (s.q k) - prevTerm s k - s.alpha k • s.q k := by
      rw [← h1, h2]; module
    have hself : s.q (k + 1) ⬝ᵥ s.q (k + 1) = 1 := by
      rw [h7, h4]
      rw [h4] at h6
      exact unit_self h6
    -- the recurrence for the older vectors
    have hrec : ∀ j < k, K.mulVec (s.q j)
        = prevTerm s j + s.alpha j • s.q j + s.beta j • s.q (j + 1) := by
      intro j hj
      obtain ⟨w', p', g1, g2, g3, g4, g5⟩ := hs.2 j (by omega)
      rw [hop] at g1
      rw [Option.some.inj g1, g2, (g5 (by omega)).2, smul_smul, mul_inv_cancel₀ (g5 (by omega)).1,
        one_smul]
    have hnew : ∀ i ≤ k, s.q i ⬝ᵥ s.q (k + 1) = 0 := by
      intro i hi
      suffices hz : s.q i ⬝ᵥ p = 0 by
        rw [h7, dotProduct_smul, hz, smul_zero]
      have hprev : ∀ j, j ≤ k → i ≤ k → s.q i ⬝ᵥ prevTerm s j
          = if j = 0 then 0 else if i = j - 1 then s.beta (j - 1) else 0 := by
        intro j hj hi
        unfold prevTerm
        by_cases hj0 : j = 0
        · simp [hj0]
        · rw [if_neg hj0, if_neg hj0, dotProduct_smul, ih i (j - 1) hi (by omega)]
          split <;> simp
      rcases Nat.eq_or_lt_of_le hi with rfl | hi
      · -- `i = k`
        have ha : s.alpha i = s.q i ⬝ᵥ (K.mulVec (s.q i) - prevTerm s i) := by rw [h3, h1]
        rw [hp, dotProduct_sub, ← ha, dotProduct_smul, ih i i le_rfl le_rfl]
        simp
      · rw [hp, dotProduct_sub, dotProduct_sub, dotProduct_smul, ih i k hi.le le_rfl,
          if_neg hi.ne, hprev k le_rfl hi.le, dot_mulVec_symm hK, hrec i hi, dotProduct_add,
          dotProduct_add, dotProduct_smul, dotProduct_smul, ih k i le_rfl hi.le, if_neg hi.ne',
          ih k (i + 1) le_rfl (by omega)]
        have hz : s.q k ⬝ᵥ prevTerm s i = 0 := by
          unfold prevTerm
          by_cases hi0 : i = 0
          · simp [hi0]
          · rw [if_neg hi0, dotProduct_smul, ih k (i - 1) le_rfl (by omega), if_neg (by omega)]
            simp
        rw [hz]
        by_cases hik : k = i + 1
        · rw [if_pos hik, if_neg (show k ≠ 0 by omega), if_pos (by omega),
            show k - 1 = i by omega]
          simp
        · rw [if_neg hik, if_neg (show k ≠ 0 by omega), if_neg (by omega)]
          simp
    intro i j hi hj
    rcases Nat.lt_succ_iff_lt_or_eq.1 (Nat.lt_succ_of_le hi) with hi' | rfl
    · rcases Nat.lt_succ_iff_lt_or_eq.1 (Nat.lt_succ_of_le hj) with hj' | rfl
      · exact ih i j (by omega) (by omega)
      · rw [hnew i (by omega), if_neg (by omega)]
    · rcases Nat.lt_succ_iff_lt_or_eq.1 (Nat.lt_succ_of_le hj) with hj' | rfl
      · rw [dotProduct_comm, hnew j (by omega), if_neg (by omega)]
      · rw [hself, if_pos rfl]

/-! ### Reorthogonalisation -/

theorem reorth_id {k : ℕ} {q : ℕ → Fin n → ℝ} {p : Fin n → ℝ} (h : ∀ i < k - 2, p ⬝ᵥ q i = 0) :
    reorth k q p = p := by
  unfold reorth
  refine forUp_inv (Nat.zero_le _) _ _ (fun _ r => r = p) rfl ?_
  intro i t _ hi ht
  rw [ht, h i hi]; simp

/-! ### Thomas algorithm -/

theorem thomas_solve {alpha beta : ℕ → ℝ} {lam : ℝ} {m : ℕ} (hm : 0 < m) {y : ℕ → ℝ}
    {s0 s : (ℕ → ℝ) × (ℕ → ℝ)} (h : thomasFwd alpha beta lam m y s0 = some s) (i : ℕ) (hi : i < m) :
    (alpha i - lam) * thomasBwd m s y i
      + (if i = 0 then 0 else beta (i - 1) * thomasBwd m s y (i - 1))
      + (if i + 1 = m then 0 else beta i * thomasBwd m s y (i + 1)) = y i := by
  -- the pivots and coefficients
  have hf : (alpha 0 - lam ≠ 0 ∧ s.1 0 * (alpha 0 - lam) = -beta 0 ∧
      s.2 0 * (alpha 0 - lam) = y 0) ∧ ∀ j, 1 ≤ j → j < m →
      ((alpha j - lam) + beta (j - 1) * s.1 (j - 1) ≠ 0 ∧
      s.1 j * ((alpha j - lam) + beta (j - 1) * s.1 (j - 1)) = -beta j ∧
      s.2 j * ((alpha j - lam) + beta (j - 1) * s.1 (j - 1)) = y j - beta (j - 1) * s.2 (j - 1)) := by
    unfold thomasFwd at h
    simp only [Option.bind_eq_bind, Option.bind_eq_some_iff] at h
    obtain ⟨p0, hp0, q0, hq0, h⟩ := h
    obtain ⟨hd, rfl⟩ := sdivide_some hp0
    obtain ⟨-, rfl⟩ := sdivide_some hq0
    refine forUpM_inv (show 1 ≤ m from hm) _ _ _ (fun k (s : (ℕ → ℝ) × (ℕ → ℝ)) =>
      (alpha 0 - lam ≠ 0 ∧ s.1 0 * (alpha 0 - lam) = -beta 0 ∧
      s.2 0 * (alpha 0 - lam) = y 0) ∧ ∀ j, 1 ≤ j → j < k →
      ((alpha j - lam) + beta (j - 1) * s.1 (j - 1) ≠ 0 ∧
      s.1 j * ((alpha j - lam) + beta (j - 1) * s.1 (j - 1)) = -beta j ∧
      s.2 j * ((alpha j - lam) + beta (j - 1) * s.1 (j - 1)) = y j - beta (j - 1) * s.2 (j - 1)))
      ⟨⟨hd, by simp only [upd1_self]; field_simp, by simp only [upd1_self]; field_simp⟩,
        fun j h1 h2 => by omega⟩ ?_ h
    intro k u v hk1 hkm ⟨⟨g1, g2, g3⟩, g4⟩ hv
    obtain ⟨pi, hpi, hv⟩ := Option.bind_eq_some_iff.1 hv
    obtain ⟨qi, hqi, hv⟩ := Option.bind_eq_some_iff.1 hv
    obtain ⟨hd', rfl⟩ := sdivide_some hpi
    obtain ⟨-, rfl⟩ := sdivide_some hqi
    obtain rfl := Option.some.inj hv
    refine ⟨⟨g1, ?_, ?_⟩, ?_⟩
    · simp only; rw [upd1_ne _ _ (by omega)]; exact g2
    · simp only; rw [upd1_ne _ _ (by omega)]; exact g3
    · intro j h1 h2
      rcases Nat.lt_succ_iff_lt_or_eq.1 h2 with h2 | rfl
      · simp only
        rw [upd1_ne _ _ (by omega), upd1_ne _ _ (by omega), upd1_ne _ _ (by omega),
          upd1_ne _ _ (by omega)]
        exact g4 j h1 h2
      · simp only [upd1_self]
        rw [upd1_ne _ _ (by omega), upd1_ne _ _ (by omega)]
        exact ⟨hd', by field_simp, by field_simp⟩
  -- back substitution
  have hb : thomasBwd m s y (m - 1) = s.2 (m - 1) ∧ ∀ j, j < m - 1 →
      thomasBwd m s y j = s.1 j * thomasBwd m s y (j + 1) + s.2 j := by
    have := forDown_inv (Nat.zero_le (m - 1))
      (fun i y => upd1 y i (s.1 i * y (i + 1) + s.2 i)) (upd1 y (m - 1) (s.2 (m - 1)))
      (fun k z => z (m - 1) = s.2 (m - 1) ∧ ∀ j, k ≤ j → j < m - 1 →
        z j = s.1 j * z (j + 1) + s.2 j)
      ⟨by simp, fun j h1 h2 => by omega⟩ (by
        intro k u _ hk ⟨g1, g2⟩
        refine ⟨by rw [upd1_ne _ _ (by omega)]; exact g1, ?_⟩
        intro j h1 h2
        rcases Nat.eq_or_lt_of_le h1 with rfl | h1
        · rw [upd1_self, upd1_ne _ _ (by omega)]
        · rw [upd1_ne _ _ (by omega), upd1_ne _ _ (by omega)]
          exact g2 j h1 h2)
    exact ⟨this.1, fun j hj => this.2 j (Nat.zero_le _) hj⟩
  obtain ⟨⟨f1, f2, f3⟩, f4⟩ := hf
  obtain ⟨b1, b2⟩ := hb
  set z := thomasBwd m s y with hz
  by_cases hi0 : i = 0
  · subst hi0
    rw [if_pos rfl]
    by_cases hm1 : 0 + 1 = m
    · rw [if_pos hm1]
      have : z 0 = s.2 0 := by rw [show 0 = m - 1 by omega]; exact b1
      rw [this, ← f3]; ring
    · rw [if_neg hm1, b2 0 (by omega)]
      linear_combination z (0 + 1) * f2 + f3
  · rw [if_neg hi0]
    obtain ⟨k1, k2, k3⟩ := f4 i (by omega) hi
    have hprev := b2 (i - 1) (by omega)
    rw [show i - 1 + 1 = i by omega] at hprev
    rw [hprev]
    by_cases hm1 : i + 1 = m
    · rw [if_pos hm1]
      have : z i = s.2 i := by rw [show i = m - 1 by omega]; exact b1
      rw [this]
      linear_combination k3
    · rw [if_neg hm1]
      have hcur := b2 i (by omega)
      rw [hcur]
      linear_combination z (i + 1) * k2 + k3

/-- Success of the elimination when the pivots do not vanish. -/
theorem thomas_total {alpha beta : ℕ → ℝ} {lam : ℝ} {m : ℕ} (hm : 0 < m) (y : ℕ → ℝ)
    (s0 : (ℕ → ℝ) × (ℕ → ℝ)) (piv : ℕ → ℝ) (h0 : piv 0 = alpha 0 - lam)
    (hs : ∀ i, i + 1 < m → piv (i + 1) * piv i = (alpha (i + 1) - lam) * piv i - beta i * beta i)
    (hne : ∀ i < m, piv i ≠ 0) : ∃ s, thomasFwd alpha beta lam m y s0 = some s := by
  unfold thomasFwd
  have hp0 := hne 0 hm
  rw [h0] at hp0
  simp only [sdivide, if_neg hp0, Option.bind_eq_bind, Option.bind_some]
  obtain ⟨t, ht, -⟩ := forUpM_total (show 1 ≤ m from hm) (fun i (s : (ℕ → ℝ) × (ℕ → ℝ)) => do
      let d := (alpha i - lam) + beta (i - 1) * s.1 (i - 1)
      let pi ← sdivide (-beta i) d
      let qi ← sdivide (y i - beta (i - 1) * s.2 (i - 1)) d
      return (upd1 s.1 i pi, upd1 s.2 i qi))
    (upd1 s0.1 0 (-beta 0 / (alpha 0 - lam)), upd1 s0.2 0 (y 0 / (alpha 0 - lam)))
    (fun k s => s.1 (k - 1) * piv (k - 1) = -beta (k - 1))
    (by simp only [upd1_self, Nat.sub_self]; rw [h0]; field_simp)
    (by
      intro i s h1 h2 hinv
      have hpi := hne (i - 1) (by omega)
      have hd : (alpha i - lam) + beta (i - 1) * s.1 (i - 1) = piv i := by
        have := hs (i - 1) (by omega)
        rw [show i - 1 + 1 = i by omega] at this
        apply mul_right_cancel₀ hpi
        rw [this]
        linear_combination beta (i - 1) * hinv
      have hpn := hne i h2
      simp only [hd, sdivide, if_neg hpn, Option.bind_eq_bind, Option.bind_some]
      refine ⟨_, rfl, ?_⟩
      simp only [Nat.add_sub_cancel, upd1_self]
      field_simp)
  exact ⟨t, ht⟩

end Pansfem
