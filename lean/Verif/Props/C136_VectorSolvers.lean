/-
C136: the iterative solvers on `std::vector`s.
-/
import Verif.Lemmas.VectorSim
import Verif.Props.C11_CG

namespace Pansfem

/-! ### The kernels -/

/-- **C136**: each kernel of CG.h is defined exactly when no other operand is shorter than the one
its loop runs over, and returns a vector of the length of that one. -/
theorem C136_kernels_defined {K : Type} [Add K] [Sub K] [Mul K] (a b c d : K) (u v w x : List K) :
    ((subtractV u v ≠ none ↔ v.length ≤ u.length) ∧
      ∀ r, subtractV u v = some r → r.length = v.length) ∧
    ((xexpayV u a v ≠ none ↔ u.length ≤ v.length) ∧
      ∀ r, xexpayV u a v = some r → r.length = u.length) ∧
    ((xeaxpyV a u v ≠ none ↔ u.length ≤ v.length) ∧
      ∀ r, xeaxpyV a u v = some r → r.length = u.length) ∧
    ((zeaxpbyV a b u v ≠ none ↔ u.length ≤ v.length) ∧
      ∀ r, zeaxpbyV a b u v = some r → r.length = u.length) ∧
    ((xeaxpbypczV a b c u v w ≠ none ↔ u.length ≤ v.length ∧ u.length ≤ w.length) ∧
      ∀ r, xeaxpbypczV a b c u v w = some r → r.length = u.length) ∧
    ((zeawpbxpcyV a b c u v w ≠ none ↔ v.length ≤ u.length ∧ v.length ≤ w.length) ∧
      ∀ r, zeawpbxpcyV a b c u v w = some r → r.length = v.length) ∧
    ((zeawpbxmypczV a b c u v w x ≠ none ↔
        x.length ≤ u.length ∧ x.length ≤ v.length ∧ x.length ≤ w.length) ∧
      ∀ r, zeawpbxmypczV a b c u v w x = some r → r.length = x.length) ∧
    ((zeavpbwpcxpdyV a b c d u v w x ≠ none ↔
        w.length ≤ u.length ∧ w.length ≤ v.length ∧ w.length ≤ x.length) ∧
      ∀ r, zeavpbwpcxpdyV a b c d u v w x = some r → r.length = w.length) ∧
    (innerV a u v ≠ none ↔ u.length ≤ v.length) :=
  ⟨(subtractV_length u v).symm, (xexpayV_length u a v).symm, (xeaxpyV_length a u v).symm,
    (zeaxpbyV_length a b u v).symm, (xeaxpbypczV_length a b c u v w).symm,
    (zeawpbxpcyV_length a b c u v w).symm, (zeawpbxmypczV_length a b c u v w x).symm,
    (zeavpbwpcxpdyV_length a b c d u v w x).symm, innerV_defined a u v⟩

/-- **C136**: on vectors of one length the kernels are the expressions of their titles and
`inner_product` is the scalar product. -/
theorem C136_kernels {n : ℕ} (a b c d : ℝ) (u v w x : Fin n → ℝ) :
    subtractV (List.ofFn u) (List.ofFn v) = some (List.ofFn (u - v)) ∧
    xexpayV (List.ofFn u) a (List.ofFn v) = some (List.ofFn (u + a • v)) ∧
    xeaxpyV a (List.ofFn u) (List.ofFn v) = some (List.ofFn (a • u + v)) ∧
    zeaxpbyV a b (List.ofFn u) (List.ofFn v) = some (List.ofFn (a • u + b • v)) ∧
    xeaxpbypczV a b c (List.ofFn u) (List.ofFn v) (List.ofFn w) =
      some (List.ofFn (a • u + b • v + c • w)) ∧
    zeawpbxpcyV a b c (List.ofFn u) (List.ofFn v) (List.ofFn w) =
      some (List.ofFn (a • u + b • v + c • w)) ∧
    zeawpbxmypczV a b c (List.ofFn u) (List.ofFn v) (List.ofFn w) (List.ofFn x) =
      some (List.ofFn (a • u + b • (v - w + c • x))) ∧
    zeavpbwpcxpdyV a b c d (List.ofFn u) (List.ofFn v) (List.ofFn w) (List.ofFn x) =
      some (List.ofFn (a • u + b • v + c • w + d • x)) ∧
    innerV 0 (List.ofFn u) (List.ofFn v) = some (u ⬝ᵥ v) :=
  ⟨subtractV_ofFn u v, xexpayV_ofFn u a v, xeaxpyV_ofFn a u v, zeaxpbyV_ofFn a b u v,
    xeaxpbypczV_ofFn a b c u v w, zeawpbxpcyV_ofFn a b c u v w, zeawpbxmypczV_ofFn a b c u v w x,
    zeavpbwpcxpdyV_ofFn a b c d u v w x, by rw [innerV_ofFn, zero_add]⟩

example : zeawpbxmypczV (2 : ℝ) 3 5 [1, 2] [3, 4] [5, 6] [7, 8] = some [101, 118] ∧
    zeawpbxmypczV (2 : ℝ) 3 5 [1, 2] [3] [5, 6] [7, 8] = none ∧
    subtractV [(3 : ℝ), 4, 5] [1] = some [2] ∧ subtractV [(1 : ℝ)] [3, 4, 5] = none := by
  refine ⟨?_, ?_, ?_, ?_⟩ <;> simp [zeawpbxmypczV, subtractV] <;> norm_num

/-! ### The solvers -/

/-- The preconditioner on vectors agrees with the one on `Fin n → ℝ` and keeps the length. -/
theorem pcgV_eq (A : CSR ℝ) (b : List ℝ) (m : ℕ) (hm : 0 < m) (eps : ℝ)
    {N : List ℝ → Option (List ℝ)} {M : (Fin b.length → ℝ) → Option (Fin b.length → ℝ)}
    (hM : A.rows = b.length → ∀ v, N (List.ofFn v) = (M v).map List.ofFn)
    (hN : ∀ v y, v.length = A.rows → N v = some y → y.length = A.rows) :
    pcgV A N b m eps = (pcg A M b.get m eps).map asVector := by
  by_cases hA : A.rows = b.length
  · unfold pcgV pcg pcgInit
    simp only [bind_assoc]
    rw [show List.replicate b.length (0 : ℝ) = List.ofFn (0 : Fin b.length → ℝ) from zeros_ofFn _]
    refine bind_sim (mulVec_ofFn hA _) fun Ax => ?_
    refine bind_value (subtract_get _ _) ?_
    refine bind_sim (hM hA _) fun p => ?_
    refine bind_value (normV_get _) ?_
    refine bind_value (inner0 _ _) ?_
    exact pcgLoopV_eq hA (hM hA) _ _ _ ⟨0, _, p, _⟩
  · rw [show pcg A M b.get m eps = none from by
      unfold pcg pcgInit; rw [csrMul_none hA]; rfl, Option.map_none]
    unfold pcgV
    rw [← bind_assoc]
    refine bind_none' fun r hr => ?_
    obtain ⟨h1, h2⟩ := residual_len hr
    refine bind_none' fun p hp => bind_none' fun bn _ => bind_none' fun rr _ => ?_
    obtain ⟨m, rfl⟩ := Nat.exists_eq_succ_of_ne_zero hm.ne'
    unfold pcgLoopV
    rw [pcgStepV_none (by
      have := hN r p h1 hp
      simp only [List.length_replicate]
      omega)]
    rfl

/-- **C136**: `CG`, run on any `std::vector` with any matrix and at least one iteration allowed, does
what it does on vectors of the fixed length `b.size()`: the same outcome, entry by entry, and
undefined behaviour in the same cases (in particular when the matrix has not `b.size()` rows). -/
theorem C136_cg (A : CSR ℝ) (b : List ℝ) (itrmax : ℕ) (h : 0 < itrmax) (eps : ℝ) :
    cgV A b itrmax eps = (cg A b.get itrmax eps).map fun p => (List.ofFn p.1, p.2) := by
  show _ = (cg A b.get itrmax eps).map asVector
  by_cases hA : A.rows = b.length
  · unfold cgV cg cgInit
    simp only [bind_assoc]
    rw [show List.replicate b.length (0 : ℝ) = List.ofFn (0 : Fin b.length → ℝ) from zeros_ofFn _]
    refine bind_sim (mulVec_ofFn hA _) fun Ax => ?_
    refine bind_value (subtract_get _ _) ?_
    refine bind_value (normV_get _) ?_
    refine bind_value (inner0 _ _) ?_
    exact cgLoopV_eq hA _ _ _ ⟨0, _, _, _⟩
  · rw [show cg A b.get itrmax eps = none from by
      unfold cg cgInit; rw [csrMul_none hA]; rfl, Option.map_none]
    unfold cgV
    rw [← bind_assoc]
    refine bind_none' fun r hr => ?_
    obtain ⟨h1, h2⟩ := residual_len hr
    refine bind_none' fun bn _ => bind_none' fun rr _ => ?_
    obtain ⟨m, rfl⟩ := Nat.exists_eq_succ_of_ne_zero h.ne'
    unfold cgLoopV
    rw [cgStepV_none (by simp only [List.length_replicate]; omega)]
    rfl

/-- **C136**: the same for `ScalingCG`. -/
theorem C136_scalingCG (A : CSR ℝ) (b : List ℝ) (itrmax : ℕ) (h : 0 < itrmax) (eps : ℝ) :
    scalingCGV A b itrmax eps = (scalingCG A b.get itrmax eps).map fun p => (List.ofFn p.1, p.2) := by
  show _ = (scalingCG A b.get itrmax eps).map asVector
  unfold scalingCGV scalingCG
  by_cases hA : A.rows = b.length
  · refine bind_sim (getDiagonalV_ofFn hA) fun D => ?_
    exact pcgV_eq A b itrmax h eps (fun _ v => scalingV_ofFn D v) (by
      intro v y _ hy
      rw [scalingV_len hy, List.length_ofFn, hA])
  · rw [show getDiagonal b.length A = none from by unfold getDiagonal; rw [if_neg hA]]
    refine bind_none' fun D hD => ?_
    have := pcgV_eq (N := scalingV D) (M := fun _ => none) A b itrmax h eps (fun h => absurd h hA) (by
      intro v y _ hy
      rw [scalingV_len hy, getDiagonalV_len hD])
    rw [this]
    unfold pcg pcgInit
    rw [csrMul_none hA]
    rfl

/-- **C136**: the same for `ILU0CG`. -/
theorem C136_ilu0CG (A M : CSR ℝ) (b : List ℝ) (itrmax : ℕ) (h : 0 < itrmax) (eps : ℝ) :
    ilu0CGV A M b itrmax eps = (ilu0CG A M b.get itrmax eps).map fun p => (List.ofFn p.1, p.2) :=
  pcgV_eq A b itrmax h eps (fun _ v => preILU0V_ofFn M v) fun v y hv hy => by
    rw [preILU0V_len hy, hv]

/-- **C136**: the same for `SORCG`. -/
theorem C136_sorCG (A : CSR ℝ) (b : List ℝ) (itrmax : ℕ) (h : 0 < itrmax) (eps soromega : ℝ)
    (soritermax : ℕ) (soreps : ℝ) :
    sorCGV A b itrmax eps soromega soritermax soreps =
      (sorCG A b.get itrmax eps soromega soritermax soreps).map fun p => (List.ofFn p.1, p.2) :=
  pcgV_eq A b itrmax h eps (fun hA v => sorV_ofFn hA v soromega soritermax soreps)
    fun _ _ _ hy => sorV_len hy

/-- **C136**: the same for `BiCGSTAB`. -/
theorem C136_bicgstab (A : CSR ℝ) (b : List ℝ) (itrmax : ℕ) (h : 0 < itrmax) (eps : ℝ) :
    bicgstabV A b itrmax eps = (bicgstab A b.get itrmax eps).map fun p => (List.ofFn p.1, p.2) := by
  show _ = (bicgstab A b.get itrmax eps).map asVector
  by_cases hA : A.rows = b.length
  · unfold bicgstabV bicgstab biInit
    simp only [bind_assoc]
    rw [show List.replicate b.length (0 : ℝ) = List.ofFn (0 : Fin b.length → ℝ) from zeros_ofFn _]
    refine bind_sim (mulVec_ofFn hA _) fun Ax => ?_
    refine bind_value (subtract_get _ _) ?_
    refine bind_value (inner0 _ _) ?_
    refine bind_value (normV_get _) ?_
    exact biLoopV_eq hA _ _ _ ⟨0, _, _, _, _⟩
  · rw [show bicgstab A b.get itrmax eps = none from by
      unfold bicgstab biInit; rw [csrMul_none hA]; rfl, Option.map_none]
    unfold bicgstabV
    rw [← bind_assoc]
    refine bind_none' fun r hr => ?_
    obtain ⟨h1, h2⟩ := residual_len hr
    refine bind_none' fun rr _ => bind_none' fun bn _ => ?_
    obtain ⟨m, rfl⟩ := Nat.exists_eq_succ_of_ne_zero h.ne'
    unfold biLoopV
    rw [biStepV_none (by simp only [List.length_replicate]; omega)]
    rfl

/-- **C136**: the same for `ILU0BiCGSTAB`. -/
theorem C136_ilu0BiCGSTAB (A M : CSR ℝ) (b : List ℝ) (itrmax : ℕ) (h : 0 < itrmax) (eps : ℝ) :
    ilu0BiCGSTABV A M b itrmax eps =
      (ilu0BiCGSTAB A M b.get itrmax eps).map fun p => (List.ofFn p.1, p.2) := by
  show _ = (ilu0BiCGSTAB A M b.get itrmax eps).map asVector
  by_cases hA : A.rows = b.length
  · unfold ilu0BiCGSTABV ilu0BiCGSTAB biInit
    simp only [bind_assoc]
    rw [show List.replicate b.length (0 : ℝ) = List.ofFn (0 : Fin b.length → ℝ) from zeros_ofFn _]
    refine bind_sim (mulVec_ofFn hA _) fun Ax => ?_
    refine bind_value (subtract_get _ _) ?_
    refine bind_value (inner0 _ _) ?_
    refine bind_value (normV_get _) ?_
    exact pbiLoopV_eq hA (fun v => preILU0V_ofFn M v) _ _ _ ⟨0, _, _, _, _⟩
  · rw [show ilu0BiCGSTAB A M b.get itrmax eps = none from by
      unfold ilu0BiCGSTAB biInit; rw [csrMul_none hA]; rfl, Option.map_none]
    unfold ilu0BiCGSTABV
    rw [← bind_assoc]
    refine bind_none' fun r hr => ?_
    obtain ⟨h1, h2⟩ := residual_len hr
    refine bind_none' fun rr _ => bind_none' fun bn _ => ?_
    obtain ⟨m, rfl⟩ := Nat.exists_eq_succ_of_ne_zero h.ne'
    unfold pbiLoopV
    rw [pbiStepV_none (by
      intro y hy
      have := preILU0V_len hy
      simp only [List.length_replicate] at this ⊢
      omega)]
    rfl

/-- **C136**: the same for `ScalingBiCGSTAB`. -/
theorem C136_scalingBiCGSTAB (A : CSR ℝ) (b : List ℝ) (itrmax : ℕ) (h : 0 < itrmax) (eps : ℝ) :
    scalingBiCGSTABV A b itrmax eps =
      (scalingBiCGSTAB A b.get itrmax eps).map fun p => (List.ofFn p.1, p.2) := by
  show _ = (scalingBiCGSTAB A b.get itrmax eps).map asVector
  by_cases hA : A.rows = b.length
  · unfold scalingBiCGSTABV scalingBiCGSTAB biInit
    refine bind_sim (getDiagonalV_ofFn hA) fun D => ?_
    simp only [bind_assoc, pure_bind]
    rw [show List.replicate b.length (0 : ℝ) = List.ofFn (0 : Fin b.length → ℝ) from zeros_ofFn _]
    refine bind_sim (mulVec_ofFn hA _) fun Ax => ?_
    refine bind_value (subtract_get _ _) ?_
    refine bind_sim (scalingV_ofFn D _) fun p => ?_
    refine bind_value (inner0 _ _) ?_
    refine bind_value (normV_get _) ?_
    exact pbiLoopV_eq hA (fun v => scalingV_ofFn D v) _ _ _ ⟨0, _, _, p, _⟩
  · rw [show scalingBiCGSTAB A b.get itrmax eps = none from by
      unfold scalingBiCGSTAB getDiagonal; rw [if_neg hA]; rfl, Option.map_none]
    unfold scalingBiCGSTABV
    refine bind_none' fun D hD => ?_
    simp only []
    rw [← bind_assoc]
    refine bind_none' fun r hr => ?_
    obtain ⟨h1, h2⟩ := residual_len hr
    refine bind_none' fun p hp => bind_none' fun rr _ => bind_none' fun bn _ => ?_
    obtain ⟨m, rfl⟩ := Nat.exists_eq_succ_of_ne_zero h.ne'
    unfold pbiLoopV
    rw [pbiStepV_none (by
      intro y hy
      have := scalingV_len hy
      have := getDiagonalV_len hD
      simp only [List.length_replicate]
      omega)]
    rfl

/-- **C136**: the same for `BiCGSTAB2`. -/
theorem C136_bicgstab2 (A : CSR ℝ) (b : List ℝ) (itrmax : ℕ) (h : 0 < itrmax) (eps : ℝ) :
    bicgstab2V A b itrmax eps = (bicgstab2 A b.get itrmax eps).map fun p => (List.ofFn p.1, p.2) := by
  show _ = (bicgstab2 A b.get itrmax eps).map asVector
  by_cases hA : A.rows = b.length
  · unfold bicgstab2V bicgstab2 bi2Init
    simp only [bind_assoc]
    rw [show List.replicate b.length (0 : ℝ) = List.ofFn (0 : Fin b.length → ℝ) from zeros_ofFn _]
    refine bind_sim (mulVec_ofFn hA _) fun Ax => ?_
    refine bind_value (subtract_get _ _) ?_
    refine bind_value (inner0 _ _) ?_
    refine bind_value (normV_get _) ?_
    exact bi2LoopV_eq hA _ _ _ _ ⟨0, _, _, 0, 0, 0, 0, 0, 0, _⟩
  · rw [show bicgstab2 A b.get itrmax eps = none from by
      unfold bicgstab2 bi2Init; rw [csrMul_none hA]; rfl, Option.map_none]
    unfold bicgstab2V
    rw [← bind_assoc]
    refine bind_none' fun r hr => ?_
    obtain ⟨h1, h2⟩ := residual_len hr
    refine bind_none' fun rr _ => bind_none' fun bn _ => ?_
    obtain ⟨m, rfl⟩ := Nat.exists_eq_succ_of_ne_zero h.ne'
    unfold bi2LoopV
    rw [bi2StepV_none (by simp only [List.length_replicate]; omega)]
    rfl

/-- **C136**: with no iteration allowed `CG` returns as many zeros as `b` has entries whenever its
first residual is defined: the matrix may then have fewer rows than `b`. -/
theorem C136_no_iteration (A : CSR ℝ) (b : List ℝ) (eps : ℝ) (y : List ℝ)
    (hy : A.mulVec (List.replicate b.length 0) = some y) :
    cgV A b 0 eps = if A.rows ≤ b.length then some (List.replicate b.length 0, false) else none := by
  unfold cgV
  simp only []
  rw [hy]
  have h := subtractV_length b y
  rw [mulVec_length hy] at h
  split
  · rename_i hle
    obtain ⟨r, hr⟩ := Option.ne_none_iff_exists'.1 (h.2.2 hle)
    refine bind_value rfl (bind_value hr (bind_value (normV_get b) ?_))
    have hn : innerV 0 r r ≠ none := (innerV_defined 0 r r).2 le_rfl
    obtain ⟨q, hq⟩ := Option.ne_none_iff_exists'.1 hn
    exact bind_value hq rfl
  · rename_i hle
    have hr : subtractV b y = none := by
      by_contra hne
      exact hle (h.2.1 hne)
    refine bind_value rfl ?_
    rw [hr]
    rfl

/-- **C136**: for a symmetric positive definite matrix and a non-zero vector `b` with one entry per
row, `CG` and `ScalingCG` on `std::vector`s with at least as many iterations as rows return a vector
of the length of `b` whose residual is below the tolerance. -/
theorem C136_solves (A : CSR ℝ) (b : List ℝ) (K : Matrix (Fin b.length) (Fin b.length) ℝ)
    (hA : IsCSR b.length A K) (hK : SPD K) (hb : ∃ v ∈ b, v ≠ 0) (eps : ℝ) (heps : 0 < eps)
    (itrmax : ℕ) (hi : b.length ≤ itrmax) :
    (∃ x : Fin b.length → ℝ, cgV A b itrmax eps = some (List.ofFn x, true) ∧
      vnorm (b.get - K.mulVec x) < eps * vnorm b.get) ∧
    ∃ x : Fin b.length → ℝ, scalingCGV A b itrmax eps = some (List.ofFn x, true) ∧
      vnorm (b.get - K.mulVec x) < eps * vnorm b.get := by
  obtain ⟨v, hv, hv0⟩ := hb
  obtain ⟨i, hi'⟩ := List.mem_iff_get.1 hv
  have hne : b.get ≠ 0 := by
    intro h
    apply hv0
    rw [← hi', h]
    rfl
  have hpos : 0 < itrmax := lt_of_lt_of_le (Nat.zero_lt_of_lt i.2) hi
  constructor
  · obtain ⟨x, c, hx, hc⟩ := C12_converges A K hA hK b.get hne eps heps itrmax
    have hc := hc hi
    subst hc
    refine ⟨x, ?_, (C11_certificate A K hA b.get itrmax eps x true hpos hx).1 rfl⟩
    rw [C136_cg A b itrmax hpos eps, hx]
    rfl
  · obtain ⟨x, c, hx, hc⟩ := C14_scalingCG_converges A K hA hK b.get hne eps heps itrmax
    have hc := hc hi
    subst hc
    refine ⟨x, ?_, (C14_scalingCG A K hA b.get itrmax eps x true hpos hx).1 rfl⟩
    rw [C136_scalingCG A b itrmax hpos eps, hx]
    rfl

example : (∃ x : Fin 2 → ℝ, cgV (fullCSR exK) [1, 0] 2 (1 / 100) = some (List.ofFn x, true)) ∧
    cgV (fullCSR exK) [1, 0, 0] 2 (1 / 100) = none ∧
    (∃ c, cgV (fullCSR exK) [1, 0, 0] 0 (1 / 100) = some ([0, 0, 0], c)) := by
  refine ⟨?_, ?_, ?_⟩
  · obtain ⟨⟨x, hx, -⟩, -⟩ := C136_solves (fullCSR exK) [1, 0] exK (fullCSR_isCSR exK) exK_spd
      ⟨1, by simp, one_ne_zero⟩ (1 / 100) (by norm_num) 2 le_rfl
    exact ⟨x, hx⟩
  · rw [C136_cg _ _ 2 (by norm_num)]
    unfold cg cgInit
    rw [csrMul_none (by simp [fullCSR, csrOf])]
    rfl
  · refine ⟨false, ?_⟩
    obtain ⟨y, hy⟩ : ∃ y, (fullCSR exK).mulVec (List.replicate 3 0) = some y := by
      simp [fullCSR, csrOf, CSR.mulVec, CSR.rowEntries, List.range_succ, rowPtrs]
    rw [C136_no_iteration (fullCSR exK) [1, 0, 0] (1 / 100) y hy, if_pos (by simp [fullCSR, csrOf])]
    rfl

end Pansfem
