/-
C115: the vibration program.
-/
import Verif.Lemmas.ProgramVibration
import Mathlib.NumberTheory.Real.Irrational
import Verif.Props.C105_ShiftInvert
import Verif.Props.C106_GeneralShift
import Verif.Props.C109_Solvable

namespace Pansfem

open Matrix

variable {x : List (Vec ℝ)} {elements : List (List ℕ)} {bc : List ((ℕ × ℕ) × ℝ)} {E V t rho : ℝ}

theorem energy_nonneg {calls : List (AsmCall ℝ)} {v : ℕ → ℕ → ℝ} (h : ∀ c ∈ calls, 0 ≤ callEnergy c v v) :
    0 ≤ energy calls v v := by
  rw [energy_eq]
  exact List.sum_nonneg (by simpa using h)

/-- **C115**: the matrices of the program.  They are the bilinear forms of stiffness and mass over the numbered dofs,
which are the dofs without support; the stiffness is symmetric and not negative, the mass symmetric and positive
definite, and so is the matrix the shift-and-invert process solves with if the shift is negative. -/
theorem C115_matrices (hi : VibrationInput x elements bc E V t rho) :
    ∃ (r : List (List ℤ) × ℕ) (A B : CSR ℝ) (K M : Matrix (Fin r.2) (Fin r.2) ℝ) (ks ms : List (ElemData ℝ)),
      vibrationSystem x elements bc E V t rho = some (r, A, B) ∧
      vibrationStiffness x elements E V t = some ks ∧ vibrationMass x elements rho t = some ms ∧
      IsCSR r.2 A K ∧ IsCSR r.2 B M ∧ FormOf r.1 ks K ∧ FormOf r.1 ms M ∧
      r.2 = (freeDofs (freeTable x.length 2) bc).length ∧
      (∀ y : Fin r.2 → ℝ, ZeroAtSupports x bc (fieldOf r.1 y)) ∧
      (∀ v, ZeroAtSupports x bc v → ∃ y : Fin r.2 → ℝ, fieldOf r.1 y = v) ∧
      (∀ i j, K i j = K j i) ∧ (∀ y, 0 ≤ y ⬝ᵥ K.mulVec y) ∧ SPD M ∧
      ∀ sigma : ℝ, sigma < 0 → SPD (K - sigma • M) := by
  obtain ⟨hQ, hE, ⟨hV1, hV2⟩, ht, hr, hbc, huse⟩ := hi
  have hV : (1 - 2 * V) * (1 + V) ≠ 0 := (mul_pos (by linarith) (by linarith)).ne'
  obtain ⟨ks, hks⟩ := Option.isSome_iff_exists.1 (elemItems_isSome (k := 2) (dl := [0, 1])
    (core := fun X => planeStrainStiffness SF.square8 IC.gauss9Square X E V t) (x := x) (elements := elements) rfl
    fun e he => by
      obtain ⟨h1, h2, h3⟩ := hQ e he
      obtain ⟨X, hX⟩ := triangle_coords h1 (n := 8) h2
      obtain ⟨A, hA⟩ := Option.isSome_iff_exists.1 ((C32_planeStrain_defined (E := E) (t := t)).2
        ⟨hV, quad8_regular hX h3⟩)
      exact ⟨X, A, hX, hA⟩)
  obtain ⟨ms, hms⟩ := Option.isSome_iff_exists.1 (elemItems_isSome (k := 2) (dl := [0, 1])
    (core := fun X => planeMass SF.square8 IC.gauss9Square X rho t) (x := x) (elements := elements) rfl
    fun e he => by
      obtain ⟨h1, h2, h3⟩ := hQ e he
      obtain ⟨X, hX⟩ := triangle_coords h1 (n := 8) h2
      exact ⟨X, _, hX, planeMass_eq_some.2 rfl⟩)
  obtain ⟨k1, k2⟩ := elemItems_some hks
  obtain ⟨m1, m2⟩ := elemItems_some hms
  have hdl : ∀ j ∈ [0, 1], j < 2 := by decide
  obtain ⟨⟨u, t₁⟩, hset⟩ := Option.isSome_iff_exists.1
    ((C21_defined (zeroField x.length 2) (freeTable x.length 2) bc).2 fun p hp => by
      obtain ⟨h1, h2⟩ := hbc p hp
      exact ⟨by rw [nodal_zeroField h1 h2]; rfl, by rw [dofNum_freeTable h1 h2]; rfl⟩)
  have hmarks := C21_marks _ _ _ _ _ hset
  have hN := renumbering_numbered t₁
  have kfit : ∀ it ∈ ks, it.call.Fits (renumbering t₁).1 u := fun it hit => by
    obtain ⟨-, a1, e, -, a2⟩ := k2 it hit
    exact fits_renumbered hset (elem_fits a1 hdl (by norm_num) a2)
  have mfit : ∀ it ∈ ms, it.call.Fits (renumbering t₁).1 u := fun it hit => by
    obtain ⟨-, a1, e, -, a2⟩ := m2 it hit
    exact fits_renumbered hset (elem_fits a1 hdl (by norm_num) a2)
  have ksym : SymmetricCalls (ks.map ElemData.call) := fun c hc => by
    obtain ⟨it, hit, rfl⟩ := List.mem_map.1 hc
    obtain ⟨-, a1, e, -, a2⟩ := k2 it hit
    exact elem_sym a1 a2 fun X A hA => C32_planeStrain hA
  have msym : SymmetricCalls (ms.map ElemData.call) := fun c hc => by
    obtain ⟨it, hit, rfl⟩ := List.mem_map.1 hc
    obtain ⟨-, a1, e, -, a2⟩ := m2 it hit
    exact elem_sym a1 a2 fun X A hA => C32_planeMass hA
  obtain ⟨LA, A, sA, K, ha1, ha2, ha3, ha4, ha5⟩ := asmMatrix_form hN kfit ksym
  obtain ⟨LB, B, sB, M, hb1, hb2, hb3, hb4, hb5⟩ := asmMatrix_form hN mfit msym
  have kpos : ∀ v, ∀ c ∈ ks.map ElemData.call, 0 ≤ callEnergy c v v := fun v c hc => by
    obtain ⟨it, hit, rfl⟩ := List.mem_map.1 hc
    obtain ⟨-, a1, e, he, X, C, hX, hC, a2⟩ := k2 it hit
    obtain ⟨-, h2, h3⟩ := hQ e he
    rw [a2, matrix_energy C h2 rfl]
    exact C34_planeStrain (fun g => (quad8_measure hX h3 g).le) ht.le hE.le hV1 hV2 hC _
  have mpos : ∀ v, ∀ c ∈ ms.map ElemData.call, 0 ≤ callEnergy c v v := fun v c hc => by
    obtain ⟨it, hit, rfl⟩ := List.mem_map.1 hc
    obtain ⟨-, a1, e, he, X, C, hX, hC, a2⟩ := m2 it hit
    obtain ⟨-, h2, h3⟩ := hQ e he
    rw [a2, matrix_energy C h2 rfl]
    exact C34_planeMass (fun g => (quad8_measure hX h3 g).le) hr.le ht.le hC _
  have hfree : ∀ n d, numOf (renumbering t₁).1 n d ≠ -1 ↔ n < x.length ∧ d < 2 ∧ (n, d) ∉ bc.map Prod.fst :=
    fun n d => (numOf_renumbered hset n d).trans free_table
  have hadm : ∀ y : Fin (renumbering t₁).2 → ℝ, ZeroAtSupports x bc (fieldOf (renumbering t₁).1 y) := by
    intro y n d h
    rw [fieldOf, if_pos]
    by_contra hc
    exact h ((hfree n d).1 hc)
  -- the numbers are those of one free dof each
  have hex : ∀ i : Fin (renumbering t₁).2, ∃ n d, dofNum (renumbering t₁).1 n d = some (i : ℤ) := fun i =>
    (C20_range t₁ i (by omega)).2 ⟨by omega, by exact_mod_cast i.2⟩
  have hval : ∀ (y : Fin (renumbering t₁).2 → ℝ) (i : Fin (renumbering t₁).2) (n d : ℕ),
      dofNum (renumbering t₁).1 n d = some (i : ℤ) → fieldOf (renumbering t₁).1 y n d = y i := by
    intro y i n d h
    rw [fieldOf, numOf_some h, if_neg (by omega), dif_pos (by simp)]
    rfl
  have hM : SPD M := by
    refine ⟨hb5, fun y hy => ?_⟩
    rw [hb4 y y]
    refine energy_pos (mpos _) fun hz => ?_
    obtain ⟨i, hyi⟩ := Function.ne_iff.1 hy
    obtain ⟨n, d, hnd⟩ := hex i
    apply hyi
    rw [← hval y i n d hnd]
    obtain ⟨f1, f2, f3⟩ := (hfree n d).1 (by rw [numOf_some hnd]; omega)
    obtain ⟨e, he, hne⟩ := (huse n f1 d f2).resolve_right f3
    obtain ⟨-, m4⟩ := matrixCalls_some m1
    obtain ⟨c, hc, X, C, hX, hC, rfl⟩ := m4 e he
    obtain ⟨-, h2, h3⟩ := hQ e he
    have h0 := hz _ hc
    rw [matrix_energy C h2 rfl] at h0
    have hu := planeMass_zero (fun g => quad8_measure hX h3 g) hr ht hC h0
    obtain ⟨i', hi', rfl⟩ := List.mem_iff_getElem.1 hne
    have := congrFun hu (⟨i', by omega⟩, ⟨d, f2⟩)
    rw [localField] at this
    have hd : ([0, 1] : List ℕ)[d]?.getD 0 = d := by interval_cases d <;> rfl
    simpa [hi', hd] using this
  have hK : ∀ y, 0 ≤ y ⬝ᵥ K.mulVec y := fun y => by rw [ha4 y y]; exact energy_nonneg (kpos _)
  refine ⟨renumbering t₁, A, B, K, M, ks, ms, ?_, hks, hms, ha3, hb3, ha4, hb4, free_count hset, hadm, ?_, ha5, hK, hM,
    fun sigma hs => ⟨fun i j => ?_, fun y hy => ?_⟩⟩
  · unfold vibrationSystem
    have hks' : vibrationStiffness x elements E V t = some ks := hks
    have hms' : vibrationMass x elements rho t = some ms := hms
    simp only [hmarks, hks', hms', ha1, hb1, ha2, hb2, Option.bind_eq_bind, Option.bind_some, Option.pure_def]
  · intro v hv
    choose n d hnd using hex
    refine ⟨fun i => v (n i) (d i), ?_⟩
    funext m j
    by_cases hf : numOf (renumbering t₁).1 m j = -1
    · rw [fieldOf, if_pos hf, hv m j fun h => (hfree m j).2 h hf]
    · have hd := dofNum_of_numOf hf
      rcases hN m j _ hd with h | ⟨h1, h2⟩
      · exact absurd h hf
      · obtain ⟨i, hi⟩ : ∃ i : Fin (renumbering t₁).2, numOf (renumbering t₁).1 m j = (i : ℤ) :=
          ⟨⟨(numOf (renumbering t₁).1 m j).toNat, by omega⟩, by simp [h1]⟩
        rw [hi] at hd
        rw [hval _ i m j hd]
        obtain ⟨e1, e2⟩ := renum_inj (by omega) (hnd i) hd
        rw [e1, e2]
  · simp only [Matrix.sub_apply, Matrix.smul_apply, ha5 i j, hb5 i j]
  · rw [Matrix.sub_mulVec, dotProduct_sub, Matrix.smul_mulVec, dotProduct_smul, smul_eq_mul]
    have h1 := hK y
    have h2 := hM.2 y hy
    have h3 : sigma * (y ⬝ᵥ M.mulVec y) < 0 := mul_neg_of_neg_of_pos hs h2
    linarith

theorem isCSR_unique {n : ℕ} {A : CSR ℝ} {K K' : Matrix (Fin n) (Fin n) ℝ} (h : IsCSR n A K) (h' : IsCSR n A K') :
    K = K' := by
  ext i j
  have := (h.entries i j).symm.trans (h'.entries i j)
  exact Option.some.inj this

/-- The vectors of the process are not zero. -/
theorem gLanczos_ne {n : ℕ} {solve B : (Fin n → ℝ) → Option (Fin n → ℝ)} {M : Matrix (Fin n) (Fin n) ℝ}
    (hB : ∀ v, B v = some (M.mulVec v)) {m : ℕ} (hn : n ≠ 0) {d : Fin n → ℝ} {s : GLanState n}
    (h : gLanczos solve B d m = some s) : ∀ j < m, s.q j ≠ 0 := by
  obtain ⟨h1, h2, -, h3⟩ := gLanczos_inv hB hn h
  intro j
  induction j with
  | zero =>
    intro _ h0
    rw [h2] at h0
    have hd : d = 0 := (smul_eq_zero.1 h0).resolve_left (inv_ne_zero h1)
    exact h1 (by simp [hd, vnorm])
  | succ j ih =>
    intro hj h0
    obtain ⟨w, p, -, -, -, g4, g5⟩ := h3 j (by omega)
    obtain ⟨g6, g7⟩ := g5 (by omega)
    rw [g7] at h0
    have hp : p = 0 := (smul_eq_zero.1 h0).resolve_left (inv_ne_zero g6)
    exact g6 (by rw [g4, hp]; simp)

/-- **C115**: what a run returns.  There are `m` values and fields.  The fields vanish at the supports.  Value and field
satisfy the equation of vibration, tested with any field, up to the errors of the solutions inside the process (each
below `1e-10` times its right-hand side), the residual of the small tridiagonal problem, and the last remainder.  What is missing is that these are small when the process is complete, and that is not so:
see `C115_false`. -/
theorem C115_pairs_partial (hi : VibrationInput x elements bc E V t rho) {sigma : ℝ} (hs : sigma < 0) {m fuel itr : ℕ}
    (hm : 0 < m) {out : List (ℝ × List (Vec ℝ))} (h : vibration x elements bc E V t rho sigma m fuel itr = some out)
    {r : List (List ℤ) × ℕ} {A B : CSR ℝ} (hsys : vibrationSystem x elements bc E V t rho = some (r, A, B))
    {K M : Matrix (Fin r.2) (Fin r.2) ℝ} (hA : IsCSR r.2 A K) (hB : IsCSR r.2 B M) {ks ms : List (ElemData ℝ)}
    (hks : vibrationStiffness x elements E V t = some ks) (hms : vibrationMass x elements rho t = some ms)
    (h0 : r.2 ≠ 0) :
    out.length = m ∧ ∃ s : GLanState r.2, generalProcess A B m sigma = some s ∧
      ∃ w : ℕ → Fin r.2 → ℝ, (∀ j < m, vnorm (M.mulVec (s.q j) - (K - sigma • M).mulVec (w j)) <
          1.0e-10 * vnorm (M.mulVec (s.q j))) ∧
      ∀ k lam u, out[k]? = some (lam, u) → u.length = x.length ∧ ZeroAtSupports x bc (valOf u) ∧
        ∃ (e : ℝ) (y : ℕ → ℝ), bisection s.alpha s.beta m (m - k - 1) fuel = some e ∧ e ≠ 0 ∧
          invPow s.alpha s.beta e m itr = some y ∧ lam = sigma + e⁻¹ ∧
          ∀ rr, TriResidual m s.alpha s.beta e y rr → ∃ p, Real.sqrt (M.mulVec p ⬝ᵥ p) = s.beta (m - 1) ∧
            ∀ z : Fin r.2 → ℝ, energy (ks.map ElemData.call) (fieldOf r.1 z) (valOf u) -
                lam * energy (ms.map ElemData.call) (fieldOf r.1 z) (valOf u) =
              -(e⁻¹ * z ⬝ᵥ (∑ j ∈ Finset.range m, y j • (M.mulVec (s.q j) - (K - sigma • M).mulVec (w j)) +
                (K - sigma • M).mulVec (reconvert m rr s.q + y (m - 1) • p))) := by
  obtain ⟨r', A', B', K', M', ks', ms', a1, a2, a3, a4, a5, a6, a7, a8, a9, -, -, -, a10, a11⟩ := C115_matrices hi
  rw [hsys] at a1
  obtain ⟨rfl, rfl, rfl⟩ : r = r' ∧ A = A' ∧ B = B' := by simpa using a1
  obtain rfl := isCSR_unique hA a4
  obtain rfl := isCSR_unique hB a5
  obtain rfl := Option.some.inj (hks.symm.trans a2)
  obtain rfl := Option.some.inj (hms.symm.trans a3)
  unfold vibration at h
  simp only [hsys, Option.bind_eq_bind, Option.bind_some, Option.bind_eq_some_iff, Option.pure_def] at h
  obtain ⟨s, hp, hmap⟩ := h
  have hlen : out.length = m := by simpa using (mapM_entries hmap).1
  refine ⟨hlen, s, hp, ?_⟩
  -- the solutions inside the process
  obtain ⟨Ash, hsh, hshc⟩ := shiftPencil_spec hA hB sigma
  have hne : ∀ j < m, M.mulVec (s.q j) ≠ 0 := by
    intro j hj hz
    have hp' := hp
    unfold generalProcess at hp'
    simp only [Option.bind_eq_bind, Option.bind_eq_some_iff] at hp'
    obtain ⟨_, -, d, -, hp'⟩ := hp'
    have hq := gLanczos_ne (fun v => csrMul_eq hB v) h0 hp' j hj
    have := a10.2 _ hq
    rw [hz] at this
    simp at this
  obtain ⟨w, hw⟩ : ∃ w : ℕ → Fin r.2 → ℝ, ∀ j < m, ∃ c,
      scalingCG Ash (M.mulVec (s.q j)) (max r.2 10000) 1.0e-10 = some (w j, c) := by
    have hp' := hp
    unfold generalProcess at hp'
    simp only [hsh, Option.bind_eq_bind, Option.bind_some, Option.bind_eq_some_iff] at hp'
    obtain ⟨d, -, hp'⟩ := hp'
    obtain ⟨-, -, -, hrow⟩ := gLanczos_inv (fun v => csrMul_eq hB v) h0 hp'
    have : ∀ j, ∃ w : Fin r.2 → ℝ, j < m → ∃ c,
        scalingCG Ash (M.mulVec (s.q j)) (max r.2 10000) 1.0e-10 = some (w, c) := by
      intro j
      by_cases hj : j < m
      · obtain ⟨w, p, g1, -⟩ := hrow j hj
        unfold cgSolve at g1
        rw [hA.rows] at g1
        obtain ⟨⟨w', c⟩, g6, -⟩ := Option.map_eq_some_iff.1 g1
        exact ⟨w', fun _ => ⟨c, g6⟩⟩
      · exact ⟨0, fun h => absurd h hj⟩
    choose w hw using this
    exact ⟨w, hw⟩
  refine ⟨w, fun j hj => ?_, ?_⟩
  · obtain ⟨c, hc⟩ := hw j hj
    exact (C105_solves Ash _ hshc (a11 sigma hs) _ _ (hne j hj) c 9999 hc).2
  intro k lam u hk
  obtain ⟨k', hk', hku⟩ := (mapM_entries hmap).2 _ _ hk
  obtain ⟨hkm, rfl⟩ : k < m ∧ k = k' := by
    have hlt : k < m := by
      have := (List.getElem?_eq_some_iff.1 hk).1
      omega
    rw [List.getElem?_range hlt] at hk'
    exact ⟨hlt, Option.some.inj hk'⟩
  simp only [Option.bind_eq_some_iff, Option.some.injEq, Prod.mk.injEq] at hku
  obtain ⟨⟨lam', X⟩, hpair, u', hdis, rfl, rfl⟩ := hku
  unfold shiftedPair at hpair
  simp only [Option.bind_eq_bind, Option.bind_eq_some_iff, Option.pure_def, Option.some.injEq, Prod.mk.injEq] at hpair
  obtain ⟨e, he, f, hf, y, hy, rfl, rfl⟩ := hpair
  obtain ⟨he0, rfl⟩ : e ≠ 0 ∧ f = e⁻¹ := by
    unfold sdivide at hf
    split_ifs at hf with h
    exact ⟨h, by simpa using (Option.some.inj hf).symm⟩
  have hval : valOf u' = fieldOf r.1 (reconvert m y s.q) := by
    rw [fieldOf_spread]
    funext n d
    rw [valOf_disassembling hdis]
    unfold spread
    split_ifs
    · exact zeroField_val x.length 2 n d
    · rfl
  refine ⟨?_, by rw [hval]; exact a9 _, e, y, he, he0, hy, rfl, fun rr hrr => ?_⟩
  · rw [(C25_disassembling _ _ _ _ hdis).1]
    simp [zeroField]
  obtain ⟨Ash', b1, w', c', p, b2, b3, b4⟩ := C105_general A B K M hA hB h0 m hm sigma s hp y rr e he0 hrr
  obtain rfl := Option.some.inj (hsh.symm.trans b1)
  refine ⟨p, b3, fun z => ?_⟩
  have hww : ∀ j ∈ Finset.range m, y j • (M.mulVec (s.q j) - (K - sigma • M).mulVec (w' j)) =
      y j • (M.mulVec (s.q j) - (K - sigma • M).mulVec (w j)) := by
    intro j hj
    obtain ⟨c, hc⟩ := hw j (Finset.mem_range.1 hj)
    have := b2 j (Finset.mem_range.1 hj)
    rw [hc] at this
    rw [(Prod.mk.inj (Option.some.inj this)).1]
  rw [Finset.sum_congr rfl hww] at b4
  have := congrArg (fun v => z ⬝ᵥ v) b4
  simp only [dotProduct_sub, dotProduct_smul, dotProduct_neg, smul_eq_mul] at this
  rw [hval, ← a6, ← a7, this]

/-- The fields can be stored. -/
theorem vibration_disassembling {r : List (List ℤ) × ℕ} {A B : CSR ℝ}
    (h : vibrationSystem x elements bc E V t rho = some (r, A, B)) (y : Fin r.2 → ℝ) :
    ∃ u, disassembling (zeroField x.length 2) (List.ofFn y) r.1 = some u := by
  unfold vibrationSystem at h
  simp only [Option.bind_eq_bind, Option.bind_eq_some_iff, Option.pure_def, Option.some.injEq, Prod.mk.injEq] at h
  obtain ⟨t₁, ht, ks, -, LA, -, ms, -, LB, -, SA, -, SB, -, rfl, -, -⟩ := h
  have hlen : t₁.map List.length = (freeTable x.length 2).map List.length := by
    clear y
    generalize freeTable x.length 2 = t₀ at ht
    induction bc generalizing t₀ with
    | nil => simp [setDirichletMarks] at ht; rw [ht]
    | cons p bc ih =>
      simp only [setDirichletMarks, List.foldlM_cons, Option.bind_eq_bind, Option.bind_eq_some_iff] at ht
      obtain ⟨t₂, h1, h2⟩ := ht
      rw [ih t₂ h2, dofPut_lengths h1]
  obtain ⟨r1, -, -, -⟩ := C20_renumbering t₁
  refine C25_defined _ _ _ fun n d g hg hne => ?_
  rcases renumbering_numbered t₁ n d g hg with h8 | h8
  · exact absurd h8 hne
  · refine ⟨h8.1, by simpa using h8.2, ?_⟩
    have hs := isSome_of_lengths (r1.trans hlen) n d
    rw [hg] at hs
    by_cases hd : n < x.length ∧ d < 2
    · rw [nodal_zeroField hd.1 hd.2]; rfl
    · exfalso
      rw [Option.isSome_some, eq_comm] at hs
      unfold dofNum freeTable at hs
      by_cases hn : n < x.length
      · have : ¬ d < 2 := fun h => hd ⟨hn, h⟩
        simp [List.getElem?_replicate, hn, this] at hs
      · simp [List.getElem?_replicate, hn] at hs

/-! ### One quadrilateral with one free dof -/

/-- Corners and side midpoints of the square. -/
def quadNodes : List (Vec ℝ) :=
  [⟨[-1, -1]⟩, ⟨[1, -1]⟩, ⟨[1, 1]⟩, ⟨[-1, 1]⟩, ⟨[0, -1]⟩, ⟨[1, 0]⟩, ⟨[0, 1]⟩, ⟨[-1, 0]⟩]

/-- All dofs but the first one of node 2. -/
def quadSupport : List ((ℕ × ℕ) × ℝ) :=
  [((0, 0), 0), ((0, 1), 0), ((1, 0), 0), ((1, 1), 0), ((2, 1), 0), ((3, 0), 0), ((3, 1), 0), ((4, 0), 0), ((4, 1), 0),
    ((5, 0), 0), ((5, 1), 0), ((6, 0), 0), ((6, 1), 0), ((7, 0), 0), ((7, 1), 0)]

theorem quad_jacobian (r : Fin 2 → ℝ) : SF.square8.dNdr r * nodeRows 8 quadNodes [0, 1, 2, 3, 4, 5, 6, 7] = 1 := by
  have h : nodeRows 8 quadNodes [0, 1, 2, 3, 4, 5, 6, 7] =
      !![-1, -1; 1, -1; 1, 1; -1, 1; 0, -1; 1, 0; 0, 1; -1, (0 : ℝ)] := by
    ext i j
    fin_cases i <;> fin_cases j <;> rfl
  rw [h]
  ext i j
  fin_cases i <;> fin_cases j <;> simp [SF.square8, Matrix.mul_apply, Fin.sum_univ_succ] <;> ring

theorem quad_input {rho : ℝ} (hr : 0 < rho) : VibrationInput quadNodes [[0, 1, 2, 3, 4, 5, 6, 7]] quadSupport 1 0 1 rho where
  quads := by
    intro e he
    obtain rfl : e = [0, 1, 2, 3, 4, 5, 6, 7] := by simpa using he
    refine ⟨?_, rfl, fun g => by rw [quad_jacobian, Matrix.det_one]; norm_num⟩
    intro m hm
    simp only [List.mem_cons, List.not_mem_nil, or_false] at hm
    rcases hm with rfl | rfl | rfl | rfl | rfl | rfl | rfl | rfl <;> exact ⟨rfl, rfl⟩
  young := by norm_num
  poisson := by norm_num
  thick := by norm_num
  dense := hr
  support := by simp [quadSupport, quadNodes]
  used := by
    intro m hm j _
    left
    refine ⟨_, List.mem_singleton_self _, ?_⟩
    simp [quadNodes] at hm
    simp
    omega

/-- The hypotheses of `C115_pairs_partial` are met by a run. -/
example : VibrationInput quadNodes [[0, 1, 2, 3, 4, 5, 6, 7]] quadSupport 1 0 1 (1 / 2) := quad_input (by norm_num)

/-- One unknown: the process. -/
theorem one_unknown {A B : CSR ℝ} {K M : Matrix (Fin 1) (Fin 1) ℝ} {sigma : ℝ} (hA : IsCSR 1 A K) (hB : IsCSR 1 B M)
    (ha : 0 < K 0 0 - sigma * M 0 0) (hm : 0 < M 0 0) :
    ∃ (s : GLanState 1) (w : ℝ), generalProcess A B 1 sigma = some s ∧
      |M 0 0 - (K 0 0 - sigma * M 0 0) * w| < 1.0e-10 * M 0 0 ∧ s.alpha 0 = M 0 0 * w ∧
      s.beta 0 = Real.sqrt (M 0 0 * (w - M 0 0 * w) * (w - M 0 0 * w)) := by
  obtain ⟨A', h1, h2⟩ := shiftPencil_spec hA hB sigma
  have hK : (K - sigma • M) 0 0 = K 0 0 - sigma * M 0 0 := rfl
  obtain ⟨a, hae⟩ : ∃ a, a = K 0 0 - sigma * M 0 0 := ⟨_, rfl⟩
  obtain ⟨mu, hmu⟩ : ∃ mu, mu = M 0 0 := ⟨_, rfl⟩
  rw [← hmu] at hae ha hm hK
  rw [← hae] at ha hK
  rw [← hmu, ← hae]
  have hd : getDiagonal 1 A' = some ![a] := by
    rw [getDiagonal_eq A' _ h2]
    congr 1
    funext i; fin_cases i; exact hK
  have hvn : ∀ b : ℝ, 0 < b → vnorm ![b] = b := by
    intro b hb
    simp only [vnorm, dotProduct, Finset.univ_unique, Fin.default_eq_zero, Finset.sum_singleton, Matrix.cons_val_zero]
    exact Real.sqrt_mul_self hb.le
  have hMv : ∀ v : Fin 1 → ℝ, M.mulVec v = ![mu * v 0] := by
    intro v; funext i; fin_cases i; simp [Matrix.mulVec, dotProduct, hmu]
  have hKv : ∀ v : Fin 1 → ℝ, (K - sigma • M).mulVec v = ![a * v 0] := by
    intro v; funext i; fin_cases i
    rw [Matrix.mulVec, dotProduct]
    simp only [Finset.univ_unique, Fin.default_eq_zero, Finset.sum_singleton]
    exact congrArg (· * v 0) hK
  have hspd : SPD (K - sigma • M) := by
    refine ⟨fun i j => by fin_cases i; fin_cases j; rfl, fun v hv => ?_⟩
    have h0 : v 0 ≠ 0 := fun e => hv (by funext i; fin_cases i; exact e)
    rw [hKv]
    have e : v ⬝ᵥ ![a * v 0] = a * (v 0 * v 0) := by simp [dotProduct]; ring
    rw [e]
    exact mul_pos ha (mul_self_pos.2 h0)
  have hb0 : ![mu] ≠ 0 := fun e => hm.ne' (by simpa using congrFun e 0)
  obtain ⟨w, cv, g1, g2⟩ := C14_scalingCG_converges A' _ h2 hspd ![mu] hb0 1.0e-10 (by norm_num) (max 1 10000)
  have g3 := (C105_solves A' _ h2 hspd ![mu] w hb0 cv 9999 g1).2
  have g4 := lt_of_le_of_lt (abs_le_vnorm _ 0) g3
  rw [hvn mu hm, hKv] at g4
  have g5 : |mu - a * w 0| < 1.0e-10 * mu := by simpa using g4
  unfold generalProcess gLanczos
  rw [h1]
  have hq : vdiv ![a] (vnorm ![a]) = some ![1] := by
    unfold vdiv
    rw [hvn a ha, if_neg (by rintro ⟨h, -⟩; exact ha.ne' h)]
    congr 1
    funext i; fin_cases i
    simp [ha.ne']
  have h4 : M.mulVec ![1] = ![mu] := by rw [hMv]; simp
  simp only [Option.bind_eq_bind, Option.bind_some, hd, hq, csrMul_eq hB, h4, hA.rows]
  rw [forUpM_succ (Nat.zero_le 0), forUpM_same]
  simp only [Option.bind_some]
  unfold gLanStep
  have hs : cgSolve A' (max 1 10000) ![mu] = some w := by unfold cgSolve; rw [g1]; rfl
  simp only [hs, csrMul_eq hB, Option.bind_eq_bind, Option.bind_some, nextImage, storeNext, ne_eq, Nat.sub_self,
    not_true_eq_false, if_false, upd1_self, hMv]
  refine ⟨_, w 0, rfl, g5, ?_, ?_⟩
  · simp [dotProduct]
  · simp only [upd1_self]
    congr 1
    simp [dotProduct]
    ring

/-- Bisection only meets rational multiples of its bound. -/
theorem bisLoop_rational {alpha beta : ℕ → ℝ} {m mode : ℕ} {b : ℝ} : ∀ (fuel : ℕ) (q1 q2 : ℚ) (lam : Option ℝ) (e : ℝ),
    (∀ l, lam = some l → ∃ q : ℚ, l = b * q) → bisLoop alpha beta m mode b fuel (b * q1) (b * q2) lam = some e →
      ∃ q : ℚ, e = b * q := by
  intro fuel
  induction fuel with
  | zero => intro q1 q2 lam e _ h; simp [bisLoop] at h
  | succ fuel ih =>
    intro q1 q2 lam e hl h
    have hmid : 0.5 * (b * (q1 : ℝ) + b * q2) = b * ((1 / 2 * (q1 + q2) : ℚ) : ℝ) := by push_cast; norm_num; ring
    unfold bisLoop at h
    split_ifs at h with h1
    · simp only [hmid] at h
      split_ifs at h with h2
      · exact ih _ _ _ e (fun l hl' => ⟨_, (Option.some.inj hl').symm⟩) h
      · exact ih _ _ _ e (fun l hl' => ⟨_, (Option.some.inj hl').symm⟩) h
    · exact hl e h

/-- The inverse power method on one unknown. -/
theorem invPow_one {alpha beta : ℕ → ℝ} {lam : ℝ} (h : alpha 0 ≠ lam) (itr : ℕ) :
    ∃ y, invPow alpha beta lam 1 itr = some y := by
  have hd : alpha 0 - lam ≠ 0 := sub_ne_zero.2 h
  have step : ∀ st : (ℕ → ℝ) × ((ℕ → ℝ) × (ℕ → ℝ)), st.1 0 ≠ 0 →
      ∃ st', invPowStep alpha beta lam 1 st = some st' ∧ st'.1 0 ≠ 0 := by
    intro st h0
    have hq : st.1 0 / (alpha 0 - lam) ≠ 0 := div_ne_zero h0 hd
    unfold invPowStep thomasFwd
    simp only [sdivide, hd, if_false, Option.bind_eq_bind, Option.bind_some, forUpM_same, thomasBwd, Nat.sub_self,
      forDown, upd1_self, Finset.sum_range_one, Option.pure_def]
    have hn : Real.sqrt (st.1 0 / (alpha 0 - lam) * (st.1 0 / (alpha 0 - lam))) ≠ 0 := by
      rw [Real.sqrt_ne_zero']
      exact mul_self_pos.2 hq
    simp [hn, hq]
  have run : ∀ k, ∃ st, forUpM 0 k (fun _ => invPowStep alpha beta lam 1)
      (upd1 (fun _ => 0) 0 1, (fun _ => 0, fun _ => 0)) = some st ∧ st.1 0 ≠ 0 := by
    intro k
    induction k with
    | zero => exact ⟨_, forUpM_same _ _ _, by simp⟩
    | succ k ih =>
      obtain ⟨st, h1, h2⟩ := ih
      obtain ⟨st', h3, h4⟩ := step st h2
      exact ⟨st', by rw [forUpM_succ (Nat.zero_le k), h1]; exact h3, h4⟩
  obtain ⟨st, h1, -⟩ := run itr
  exact ⟨st.1, by unfold invPow; rw [if_neg (by norm_num), h1]; rfl⟩

/-- One unknown: the value found by bisection when the mass is `1 / 2`. -/
theorem one_value {A B : CSR ℝ} {K M : Matrix (Fin 1) (Fin 1) ℝ} {sigma : ℝ} (hA : IsCSR 1 A K) (hB : IsCSR 1 B M)
    (hK : 0 ≤ K 0 0) (hM : M 0 0 = 1 / 2) (hs : sigma < 0) :
    ∃ s : GLanState 1, generalProcess A B 1 sigma = some s ∧ ∀ fuel, 46 ≤ fuel →
      ∃ e, bisection s.alpha s.beta 1 0 fuel = some e ∧ e ≠ 0 ∧ s.alpha 0 ≠ e ∧
        0.9 * |sigma| < |sigma + e⁻¹ - 2 * K 0 0| := by
  obtain ⟨s, w, h1, h2, h3, h4⟩ := one_unknown hA hB (sigma := sigma) (by rw [hM]; linarith) (by rw [hM]; norm_num)
  rw [hM] at h2 h3 h4
  obtain ⟨a, hae⟩ : ∃ a, a = K 0 0 - sigma * (1 / 2) := ⟨_, rfl⟩
  rw [← hae] at h2
  have ha : 0 < a := by rw [hae]; linarith
  have h2' := abs_lt.1 h2
  norm_num at h2'
  have hw : 0 < w := by
    by_contra hc
    have : a * w ≤ 0 := mul_nonpos_of_nonneg_of_nonpos ha.le (not_lt.1 hc)
    linarith [h2'.2]
  refine ⟨s, h1, fun fuel hf => ?_⟩
  have hb0 : 0 ≤ s.beta 0 := by rw [h4]; exact Real.sqrt_nonneg _
  have hb1 : s.beta 0 ≤ w := by
    rw [h4]
    refine Real.sqrt_le_iff.2 ⟨hw.le, ?_⟩
    nlinarith [sq_nonneg w]
  have hB : bisBound s.alpha s.beta 1 = 1 / 2 * w + s.beta 0 := by
    unfold bisBound
    have e : forUp 1 1 (fun i b => if b < |s.beta (i - 1)| + |s.alpha i| + |s.beta i| then
        |s.beta (i - 1)| + |s.alpha i| + |s.beta i| else b) (|s.alpha 0| + |s.beta 0|) = |s.alpha 0| + |s.beta 0| := by
      simp [forUp]
    rw [e, h3, abs_of_pos (by linarith), abs_of_nonneg hb0]
  have hx : ∀ mu, IsEig 1 s.alpha s.beta mu ↔ ∃ i < 1, mu = (fun _ : ℕ => 1 / 2 * w) i := by
    intro mu
    rw [isEig_iff (by norm_num) (by intro i hi; omega)]
    simp [charSeq, h3, sub_eq_zero]
  obtain ⟨e, he, hd⟩ := C62_bisection (m := 1) (by norm_num) (alpha := s.alpha) (beta := s.beta)
    (x := fun _ => 1 / 2 * w) (by intro i hi; omega) (by intro i j hi hj; omega) hx (by rw [hB]; linarith) (mode := 0)
    (by norm_num) fuel hf
  rw [hB] at hd
  have hd' := abs_le.1 hd
  norm_num at hd'
  have he0 : 0 < e := by linarith [hd'.1]
  have hne : s.alpha 0 ≠ e := by
    intro h
    have hr := he
    unfold bisection at hr
    rw [if_neg (by norm_num)] at hr
    obtain ⟨q, hq⟩ := bisLoop_rational fuel (-1) 1 none e (by simp) (by simpa using hr)
    rw [← h, h3, hB] at hq
    have hsq : s.beta 0 * s.beta 0 = 1 / 8 * (w * w) := by
      rw [h4, Real.mul_self_sqrt (by nlinarith [mul_self_nonneg w])]
      ring
    obtain ⟨c, hc⟩ : ∃ c, c = 4 * s.beta 0 / w := ⟨_, rfl⟩
    have hbc : s.beta 0 = c * w / 4 := by rw [hc]; field_simp
    have hcc : c * c = 2 := by
      rw [hbc] at hsq
      have : (c * c - 2) * (w * w) = 0 := by linear_combination 16 * hsq
      linarith [(mul_eq_zero.1 this).resolve_right (mul_self_pos.2 hw.ne').ne']
    have hc0 : 0 ≤ c := by rw [hc]; positivity
    have hc2 : c = Real.sqrt 2 := by rw [← hcc, Real.sqrt_mul_self hc0]
    rw [hbc] at hq
    have hq' : (2 - (2 + c) * q) * w = 0 := by linear_combination 4 * hq
    have hq2 := (mul_eq_zero.1 hq').resolve_right hw.ne'
    have hq0 : (q : ℝ) ≠ 0 := by rintro h0; rw [h0] at hq2; norm_num at hq2
    have hcq : c = ((2 / q - 2 : ℚ) : ℝ) := by push_cast; field_simp; linarith
    exact irrational_sqrt_two ⟨_, by rw [← hcq, hc2]⟩
  refine ⟨e, he, he0.ne', hne, ?_⟩
  have hea : a * e < 0.26 := by
    have : a * e ≤ a * (0.51 * w) := mul_le_mul_of_nonneg_left (by linarith [hd'.2]) ha.le
    nlinarith [h2'.1]
  have hinv : 3.8 * a < e⁻¹ := by
    rw [lt_inv_comm₀ (by linarith) he0, lt_inv_comm₀ he0 (by linarith)]
    rw [← one_div, lt_div_iff₀ he0]
    linarith
  have hk : sigma + e⁻¹ - 2 * K 0 0 = e⁻¹ - 2 * a := by rw [hae]; ring
  rw [hk, abs_of_neg hs, abs_of_pos (by linarith)]
  have : -sigma ≤ 2 * a := by rw [hae]; linarith
  linarith

theorem quad_free : (freeDofs (freeTable quadNodes.length 2) quadSupport).length = 1 := by rfl

/-- The field with value one at the free dof. -/
def quadUnit (m j : ℕ) : ℝ := if m = 2 ∧ j = 0 then 1 else 0

theorem quadUnit_admissible : ZeroAtSupports quadNodes quadSupport quadUnit := by
  intro m j h
  unfold quadUnit
  rw [if_neg]
  rintro ⟨rfl, rfl⟩
  exact h ⟨by simp [quadNodes], by norm_num, by simp [quadSupport]⟩

/-- The mass at the free dof grows with the density. -/
theorem quad_mass : ∃ mu : ℝ, 0 < mu ∧ ∀ rho : ℝ, ∀ ms, vibrationMass quadNodes [[0, 1, 2, 3, 4, 5, 6, 7]] rho 1 = some ms →
    energy (ms.map ElemData.call) quadUnit quadUnit = rho * mu := by
  have hc : HasCoords quadNodes [0, 1, 2, 3, 4, 5, 6, 7] := ((quad_input one_pos).quads _ (List.mem_singleton_self _)).1
  obtain ⟨X, hX⟩ := triangle_coords hc (n := 8) rfl
  have hpos : ∀ g, 0 < measure2 SF.square8 IC.gauss9Square X g := fun g =>
    quad8_measure hX (fun g => by rw [quad_jacobian, Matrix.det_one]; norm_num) g
  obtain ⟨C, hC⟩ : ∃ C, planeMass SF.square8 IC.gauss9Square X 1 1 = some C := ⟨_, planeMass_eq_some.2 rfl⟩
  obtain ⟨u, hu⟩ : ∃ u : Fin 8 × Fin 2 → ℝ, u = localField [0, 1] [0, 1, 2, 3, 4, 5, 6, 7] quadUnit := ⟨_, rfl⟩
  refine ⟨u ⬝ᵥ (C *ᵥ u), ?_, fun rho ms hms => ?_⟩
  · refine lt_of_le_of_ne (C34_planeMass (fun g => (hpos g).le) one_pos.le one_pos.le hC u) fun h0 => ?_
    have := congrFun (planeMass_zero hpos one_pos one_pos hC h0.symm) (2, 0)
    rw [hu] at this
    simp [localField, quadUnit] at this
  · have hrho : planeMass SF.square8 IC.gauss9Square X rho 1 = some (rho • C) := by
      rw [planeMass_eq_some, planeMass_eq_some.1 hC, Finset.smul_sum]
      refine Finset.sum_congr rfl fun g _ => ?_
      rw [smul_smul]
      congr 1
      ring
    have hitem := (elemM_eq_some (k := 2) (dl := [0, 1]) (x := quadNodes) (e := [0, 1, 2, 3, 4, 5, 6, 7])
      (core := fun X => planeMass SF.square8 IC.gauss9Square X rho 1)).2 ⟨rfl, X, _, hX, hrho, rfl, rfl⟩
    unfold vibrationMass elemItems at hms
    simp only [List.mapM_cons, List.mapM_nil, hitem, Option.bind_eq_bind, Option.bind_some, Option.pure_def,
      Option.some.injEq] at hms
    subst hms
    rw [energy_eq]
    simp only [List.map_cons, List.map_nil, List.sum_cons, List.sum_nil, add_zero, ElemData.call]
    rw [matrix_energy (rho • C) (e := [0, 1, 2, 3, 4, 5, 6, 7]) (dl := [0, 1]) rfl rfl, ← hu, Matrix.smul_mulVec,
      dotProduct_smul, smul_eq_mul]

/-- **C115** fails: the values need not be near any eigenvalue, because the process divides its first vector by the
Euclidean norm.  One element with one free dof, where one step is complete: whatever the shift, the value that is
returned is off by more than nine tenths of the shift. -/
theorem C115_false : ∃ (x : List (Vec ℝ)) (elements : List (List ℕ)) (bc : List ((ℕ × ℕ) × ℝ)) (E V t rho : ℝ),
    VibrationInput x elements bc E V t rho ∧ (∃ lam, MeshEigenvalue x elements bc E V t rho lam) ∧
    ∀ sigma : ℝ, sigma < 0 → ∃ (r : List (List ℤ) × ℕ) (A B : CSR ℝ) (s : GLanState r.2),
      vibrationSystem x elements bc E V t rho = some (r, A, B) ∧ r.2 = 1 ∧ generalProcess A B 1 sigma = some s ∧
      ∀ fuel, 46 ≤ fuel →
        (∃ e, bisection s.alpha s.beta 1 0 fuel = some e ∧ e ≠ 0 ∧
          ∀ lam, MeshEigenvalue x elements bc E V t rho lam → 0.9 * |sigma| < |sigma + e⁻¹ - lam|) ∧
        ∀ itr, ∃ p, vibration x elements bc E V t rho sigma 1 fuel itr = some [p] ∧
          ∀ lam, MeshEigenvalue x elements bc E V t rho lam → 0.9 * |sigma| < |p.1 - lam| := by
  obtain ⟨mu, hmu, hmass⟩ := quad_mass
  have hrho : 0 < 1 / (2 * mu) := by positivity
  have hin := quad_input hrho
  refine ⟨_, _, _, 1, 0, 1, _, hin, ?_⟩
  obtain ⟨⟨tb, N⟩, A, B, K, M, ks, ms, a1, a2, a3, a4, a5, a6, a7, a8, a9, a10, a11, a12, a13, -⟩ := C115_matrices hin
  rw [quad_free] at a8
  simp only at a8
  subst a8
  obtain ⟨y, hy⟩ := a10 _ quadUnit_admissible
  have hy1 : y = fun _ => 1 := by
    have := congrFun (congrFun hy 2) 0
    have e : quadUnit 2 0 = 1 := by simp [quadUnit]
    rw [e] at this
    unfold fieldOf at this
    split_ifs at this with h1 h2
    · exact absurd this (by norm_num)
    · funext i
      rw [← this]
      congr 1
      exact Subsingleton.elim _ _
    · exact absurd this (by norm_num)
  have hM : M 0 0 = 1 / 2 := by
    have := a7 y y
    rw [hy, hmass _ _ a3, hy1] at this
    simp [Matrix.mulVec, dotProduct] at this
    rw [this]
    field_simp
  have hK : 0 ≤ K 0 0 := by
    have := a12 y
    rw [hy1] at this
    simpa [Matrix.mulVec, dotProduct] using this
  have heig : ∀ lam, MeshEigenvalue quadNodes [[0, 1, 2, 3, 4, 5, 6, 7]] quadSupport 1 0 1 (1 / (2 * mu)) lam ↔
      lam = 2 * K 0 0 := by
    intro lam
    constructor
    · rintro ⟨ks', ms', h1, h2, v, hv, ⟨m, j, hne⟩, hw⟩
      obtain rfl := Option.some.inj (h1.symm.trans a2)
      obtain rfl := Option.some.inj (h2.symm.trans a3)
      obtain ⟨z, rfl⟩ := a10 v hv
      have := hw _ (a9 z)
      rw [← a6, ← a7] at this
      have hz : z 0 ≠ 0 := by
        intro h0
        apply hne
        have hz : z = 0 := by funext i; rw [Subsingleton.elim i 0, h0]; rfl
        rw [hz]
        simp [fieldOf]
      simp [Matrix.mulVec, dotProduct, hM] at this
      have h3 : (lam - 2 * K 0 0) * (z 0 * z 0) = 0 := by linear_combination -2 * this
      have := (mul_eq_zero.1 h3).resolve_right (mul_self_pos.2 hz).ne'
      linarith
    · rintro rfl
      refine ⟨ks, ms, a2, a3, quadUnit, quadUnit_admissible, ⟨2, 0, by simp [quadUnit]⟩, fun w hw => ?_⟩
      obtain ⟨z, rfl⟩ := a10 w hw
      rw [← hy, ← a6, ← a7]
      simp [Matrix.mulVec, dotProduct, hM]
      ring
  refine ⟨⟨_, (heig _).2 rfl⟩, fun sigma hs => ?_⟩
  obtain ⟨s, h1, h2⟩ := one_value a4 a5 hK hM hs
  refine ⟨(tb, 1), A, B, s, a1, rfl, h1, fun fuel hf => ?_⟩
  obtain ⟨e, he, he0, hne, hoff⟩ := h2 fuel hf
  refine ⟨⟨e, he, he0, fun lam hl => by rw [(heig lam).1 hl]; exact hoff⟩, fun itr => ?_⟩
  obtain ⟨z, hz⟩ := invPow_one hne itr (beta := s.beta)
  obtain ⟨u, hu⟩ : ∃ u, disassembling (zeroField quadNodes.length 2) (List.ofFn (reconvert 1 z s.q)) tb = some u :=
    vibration_disassembling a1 _
  refine ⟨(sigma + 1 / e, u), ?_, fun lam hl => by rw [(heig lam).1 hl, one_div]; exact hoff⟩
  unfold vibration
  have hmap : (List.range 1).mapM (fun k : ℕ => (shiftedPair sigma 1 k fuel itr s.toLanState).bind fun p =>
      (disassembling (zeroField quadNodes.length 2) (List.ofFn p.2) tb).bind fun u => some (p.1, u)) =
      some [(sigma + 1 / e, u)] := by
    have hpair : shiftedPair sigma 1 0 fuel itr s.toLanState = some (sigma + 1 / e, reconvert 1 z s.q) := by
      unfold shiftedPair
      simp [he, hz, sdivide, he0]
    rw [List.range_one, List.mapM_cons, List.mapM_nil]
    simp only [hpair, Option.bind_some, hu, Option.bind_eq_bind, Option.pure_def]
  simp only [a1, Option.bind_eq_bind, Option.bind_some, h1, Option.pure_def]
  exact hmap

/-- A run as `C115_pairs_partial` wants it. -/
example : ∃ (x : List (Vec ℝ)) (elements : List (List ℕ)) (bc : List ((ℕ × ℕ) × ℝ)) (E V t rho : ℝ)
    (out : List (ℝ × List (Vec ℝ))) (r : List (List ℤ) × ℕ) (A B : CSR ℝ), VibrationInput x elements bc E V t rho ∧
      vibration x elements bc E V t rho (-100) 1 60 5 = some out ∧
      vibrationSystem x elements bc E V t rho = some (r, A, B) ∧ r.2 ≠ 0 := by
  obtain ⟨x, elements, bc, E, V, t, rho, h1, -, h2⟩ := C115_false
  obtain ⟨r, A, B, s, h3, h4, -, h5⟩ := h2 (-100) (by norm_num)
  obtain ⟨p, h6, -⟩ := (h5 60 (by norm_num)).2 5
  exact ⟨x, elements, bc, E, V, t, rho, _, r, A, B, h1, h6, h3, by rw [h4]; norm_num⟩

end Pansfem
