/-
C137: the element routines on objects of the classes `Matrix` and `Vector`, statement by statement, are
the routines of `Verif/Model/Elastic.lean` laid out in storage.
-/
import Verif.Lemmas.ElementStorageLoop
import Verif.Props.C33_RigidMotions

noncomputable section

namespace Pansfem

open Matrix

variable {K : Type} [Field K] {n : ℕ}

section Plane
variable [DecidableEq K] (sf : SF K 2 n) (ic icV icD : IC K 2) (element doulist : List ℕ) (x : List (Vec K))

/-- **C137**: `PlaneStrainStiffness` — for every element, list of unknowns, node table and material. -/
theorem C137_planeStrain (hN : 0 < ic.N) (E V t : K) :
    planeStrainStiffnessS sf ic element doulist x E V t =
      elemM 2 (fun X => planeStrainStiffness sf ic X E V t) element doulist x := by
  refine head_eq _ flatM (fun X nte => planeStrainDS E V >>= fun D =>
    planeLoopS sf ic element planeBS X D t (Mat.zeros (2 * element.length) (2 * element.length)) >>=
      fun Ke => pure (Ke, nte)) (fun he X nte => ?_) fun he X nte => ?_
  · subst he
    refine bind_sim (planeStrainDS_eq E V) fun D => ?_
    rw [zeros_flatM, planeLoopS_eq planeBS_eq rfl]
    unfold planeStiffness
    cases loop2 sf ic X fun _ dNdX => some (t • ((planeB dNdX)ᵀ * D * planeB dNdX)) with
    | none => rfl
    | some S => exact congrArg (fun A => some (flatM A, nte)) (zero_add S)
  · rw [planeStrainDS_eq]
    cases planeStrainD E V with
    | none => rfl
    | some D => exact congrArg (· >>= _) (planeLoopS_none planeBS hN he X (dense D) t _)

/-- **C137**: `PlaneStressStiffness`. -/
theorem C137_planeStress (hN : 0 < ic.N) (E V t : K) :
    planeStressStiffnessS sf ic element doulist x E V t =
      elemM 2 (fun X => planeStressStiffness sf ic X E V t) element doulist x := by
  refine head_eq _ flatM (fun X nte => planeStressDS E V >>= fun D =>
    planeLoopS sf ic element planeBS X D t (Mat.zeros (2 * element.length) (2 * element.length)) >>=
      fun Ke => pure (Ke, nte)) (fun he X nte => ?_) fun he X nte => ?_
  · subst he
    refine bind_sim (planeStressDS_eq E V) fun D => ?_
    rw [zeros_flatM, planeLoopS_eq planeBS_eq rfl]
    unfold planeStiffness
    cases loop2 sf ic X fun _ dNdX => some (t • ((planeB dNdX)ᵀ * D * planeB dNdX)) with
    | none => rfl
    | some S => exact congrArg (fun A => some (flatM A, nte)) (zero_add S)
  · rw [planeStressDS_eq]
    cases planeStressD E V with
    | none => rfl
    | some D => exact congrArg (· >>= _) (planeLoopS_none planeBS hN he X (dense D) t _)

/-- **C137**: `PlaneStiffness` with a given matrix `D`; the assertion on its size is the only condition. -/
theorem C137_planeStiffness (hN : 0 < ic.N) (D : Mat K) (hD : D.WF) (t : K) :
    (∀ M : Matrix (Fin 3) (Fin 3) K, D = dense M → planeStiffnessS sf ic element doulist x D t =
      elemM 2 (fun X => planeStiffness sf ic X M t) element doulist x) ∧
    (¬ (∃ M : Matrix (Fin 3) (Fin 3) K, D = dense M) → planeStiffnessS sf ic element doulist x D t = none) := by
  constructor
  · rintro D rfl
    unfold planeStiffnessS
    rw [if_pos ⟨rfl, rfl⟩]
    refine head_eq _ flatM (fun X nte =>
      planeLoopS sf ic element planeBS X (dense D) t (Mat.zeros (2 * element.length) (2 * element.length)) >>=
        fun Ke => pure (Ke, nte)) (fun he X nte => ?_) fun he X nte => ?_
    · subst he
      rw [zeros_flatM, planeLoopS_eq planeBS_eq rfl]
      unfold planeStiffness
      cases loop2 sf ic X fun _ dNdX => some (t • ((planeB dNdX)ᵀ * D * planeB dNdX)) with
      | none => rfl
      | some S => exact congrArg (fun A => some (flatM A, nte)) (zero_add S)
    · exact congrArg (· >>= _) (planeLoopS_none planeBS hN he X (dense D) t _)
  · intro h
    unfold planeStiffnessS
    refine if_neg fun hs => h ?_
    obtain ⟨r, c, v⟩ := D
    obtain ⟨h1, h2⟩ := hs
    simp only at h1 h2
    subst h1 h2
    obtain ⟨M, hM⟩ := exists_dense _ hD
    exact ⟨M, hM⟩

/-- **C137**: `PlaneStrainStiffnessSRI`: the second loop goes on in the matrix of the first. -/
theorem C137_planeStrainSRI (hV : 0 < icV.N) (E V t : K) :
    planeStrainStiffnessSRIS sf icV icD element doulist x E V t =
      elemM 2 (fun X => planeStrainStiffnessSRI sf icV icD X E V t) element doulist x := by
  refine head_eq _ flatM (fun X nte => planeStrainDvolS E V >>= fun Dvol =>
    planeLoopS sf icV element planeBS X Dvol t (Mat.zeros (2 * element.length) (2 * element.length)) >>=
      fun Ke => planeStrainDdevS E V >>= fun Ddev =>
    planeLoopS sf icD element planeBS X Ddev t Ke >>= fun Ke => pure (Ke, nte))
    (fun he X nte => ?_) fun he X nte => ?_
  · subst he
    refine bind_sim (planeStrainDvolS_eq E V) fun D => ?_
    rw [zeros_flatM, planeLoopS_eq planeBS_eq rfl]
    refine bind_sim rfl fun S => bind_sim (planeStrainDdevS_eq E V) fun D' => ?_
    rw [zero_add, planeLoopS_eq planeBS_eq rfl]
    cases loop2 sf icD X fun _ dNdX => some (t • ((planeB dNdX)ᵀ * D' * planeB dNdX)) with
    | none => rfl
    | some S => rfl
  · rw [planeStrainDvolS_eq]
    cases planeStrainDvol E V with
    | none => rfl
    | some D => exact congrArg (· >>= _) (planeLoopS_none planeBS hV he X (dense D) t _)

/-- **C137**: `PlaneStrainStiffnessBbar`. -/
theorem C137_planeStrainBbar (hV : 0 < icV.N) (E V t : K) :
    planeStrainStiffnessBbarS sf icV icD element doulist x E V t =
      elemM 2 (fun X => planeStrainStiffnessBbar sf icV icD X E V t) element doulist x := by
  refine head_eq _ flatM (fun X nte => planeStrainDS E V >>= fun D =>
    planeLoopS sf icV element planeBvolS X D t (Mat.zeros (2 * element.length) (2 * element.length)) >>=
      fun Ke => planeLoopS sf icD element planeBdevS X D t Ke >>= fun Ke => pure (Ke, nte))
    (fun he X nte => ?_) fun he X nte => ?_
  · subst he
    refine bind_sim (planeStrainDS_eq E V) fun D => ?_
    rw [zeros_flatM, planeLoopS_eq planeBvolS_eq rfl]
    refine bind_sim rfl fun S => ?_
    rw [zero_add, planeLoopS_eq planeBdevS_eq rfl]
    cases loop2 sf icD X fun _ dNdX => some (t • ((planeBdev dNdX)ᵀ * D * planeBdev dNdX)) with
    | none => rfl
    | some S => rfl
  · rw [planeStrainDS_eq]
    cases planeStrainD E V with
    | none => rfl
    | some D => exact congrArg (· >>= _) (planeLoopS_none planeBvolS hV he X (dense D) t _)

/-- **C137**: `PlaneStrainStiffnessWilsonTaylor`: one pass over the points fills the three matrices. -/
theorem C137_planeStrainWilsonTaylor (hN : 0 < ic.N) (E V t : K) :
    planeStrainStiffnessWilsonTaylorS sf ic element doulist x E V t =
      elemM 2 (fun X => planeStrainStiffnessWilsonTaylor sf ic X E V t) element doulist x := by
  refine head_eq _ flatM (fun X nte => planeStrainDS E V >>= fun D =>
    wilsonTaylorLoopS sf ic element X D t (Mat.zeros (2 * element.length) (2 * element.length),
      Mat.zeros 4 4, Mat.zeros 4 (2 * element.length)) >>= fun s =>
    s.2.2.transpose >>= fun T => s.2.1.inverse >>= fun I => T.mul I >>= fun U => U.mul s.2.2 >>= fun W =>
    s.1.sub W >>= fun Ke => pure (Ke, nte)) (fun he X nte => ?_) fun he X nte => ?_
  · subst he
    refine bind_sim (planeStrainDS_eq E V) fun D => ?_
    rw [wilsonTaylorLoopS_eq rfl]
    unfold planeStiffnessWilsonTaylor
    refine bind_sim3 fun Ke Keaa Kead => ?_
    refine bind_value (C01_mat_transpose _) ?_
    have hi := C03_inverse (n := 3) Keaa
    unfold inv?
    by_cases h : Keaa.det = 0
    · rw [if_pos h] at hi ⊢
      exact congrArg (· >>= _) hi
    · rw [if_neg h] at hi ⊢
      refine bind_value hi (bind_value (C01_mat_mul _ _) (bind_value (C01_mat_mul _ _) ?_))
      show ((flatM Ke).sub _ >>= _) = _
      rw [flatM_dense]
      refine bind_value (C01_mat_sub _ _) ?_
      refine congrArg (fun A => some (A, nte)) ?_
      rw [flatM_dense]
      rfl
  · rw [planeStrainDS_eq]
    cases planeStrainD E V with
    | none => rfl
    | some D => exact congrArg (· >>= _) (wilsonTaylorLoopS_none hN he X (dense D) t _)

/-- **C137**: `PlaneStrainMass` and `PlaneStressMass`. -/
theorem C137_planeMass (hN : 0 < ic.N) (rho t : K) :
    planeMassS sf ic element doulist x rho t =
      elemM 2 (fun X => planeMass sf ic X rho t) element doulist x := by
  refine head_eq _ flatM (fun X nte => _ >>= fun Me => pure (Me, nte)) (fun he X nte => ?_) fun he X nte => ?_
  · subst he
    rw [zeros_flatM]
    refine loop_tail (loopS_eq flatM _ _ (fun S g => ?_) 0)
    refine bind_value (C01_mat_mul _ _) (bind_value (C02_determinant _) (bind_value (planeNS_eq _)
      (bind_value (C01_mat_transpose _) (bind_value (C01_mat_mul _ _) (bind_value (scaled_dense _ _) ?_)))))
    refine (congrArg _ (congr_flat1 _ _)).trans ((flatM_add _ _).trans ?_)
    refine congrArg (fun M => some (flatM (S + M))) ?_
    rw [smul_smul]
    congr 1
    simp only [List.prod_cons, List.prod_nil, jac]
    ring
  · refine congrArg (· >>= _) (foldlM_fails (List.mem_finRange ⟨0, hN⟩) (fun s => ?_) _)
    simp only []
    rw [mul_mismatch _ _ he.symm]
    rfl

/-- **C137**: `PlaneStrainBodyForce` and `PlaneStressBodyForce`, for every load given as a function of the
place. -/
theorem C137_planeBodyForce (hN : 0 < ic.N) {f : Vec K → Vec K} {f' : (Fin 2 → K) → Fin 2 → K}
    (hf : ∀ v, f (densev v) = densev (f' v)) (t : K) :
    planeBodyForceS sf ic element doulist x f t =
      elemV 2 (fun X => planeBodyForce sf ic X f' t) element doulist x := by
  refine head_eq _ flatV (fun X nte => _ >>= fun Fe => pure (Fe, nte)) (fun he X nte => ?_) fun he X nte => ?_
  · subst he
    rw [zeros_flatV]
    refine loop_tail (loopS_eq flatV _ _ (fun S g => ?_) 0)
    refine bind_value (C01_mat_transpose _) (bind_value (C01_mat_vec _ _) (bind_value (C01_mat_mul _ _)
      (bind_value (C02_determinant _) (bind_value (planeNS_eq _) (bind_value (C01_mat_transpose _) ?_)))))
    rw [hf]
    refine bind_value (C01_mat_vec _ _) (bind_value (scaledV_dense _ _) ?_)
    refine (congrArg _ (congr_flatV _ _ _)).trans ((flatV_add _ _).trans ?_)
    refine congrArg (fun M => some (flatV (S + M))) ?_
    rw [smul_smul]
    congr 1
    simp only [List.prod_cons, List.prod_nil, jac]
    ring
  · refine congrArg (· >>= _) (foldlM_fails (List.mem_finRange ⟨0, hN⟩) (fun s => ?_) _)
    simp only []
    refine bind_value (C01_mat_transpose _) ?_
    rw [mulVec_mismatch _ _ he]
    rfl

/-- **C137**: `HeatTransfer`. -/
theorem C137_heatTransfer (hN : 0 < ic.N) (alpha t : K) :
    heatTransferS sf ic element doulist x alpha t =
      elemM 1 (scalarCore fun X => heatTransfer sf ic X alpha t) element doulist x := by
  refine (head_eq (fun X => heatTransfer sf ic X alpha t) dense (fun X nte => _ >>= fun Ke => pure (Ke, nte))
    (fun he X nte => ?_) fun he X nte => ?_).trans (scalar_head _ _ _ _)
  · subst he
    rw [C01_mat_zeros]
    refine loop_tail (loopS_eq dense _ _ (fun S g => ?_) 0)
    refine (gradS_bind sf X (ic.points g) _).trans ?_
    cases grad? sf X (ic.points g) with
    | none => rfl
    | some G =>
      refine bind_value rfl (bind_value (C01_mat_transpose _) (bind_value (C01_mat_mul _ _)
        (bind_value (scaled_dense _ _) ?_)))
      rw [C01_mat_add]
      refine congrArg (fun M => some (dense (S + M))) ?_
      rw [smul_smul]
      congr 1
      simp only [List.prod_cons, List.prod_nil]
      ring
  · refine congrArg (· >>= _) (foldlM_fails (List.mem_finRange ⟨0, hN⟩) (fun s => ?_) _)
    simp only []
    rw [mul_mismatch _ _ he.symm]
    rfl

/-- **C137**: `HeatCapacity`. -/
theorem C137_heatCapacity (hN : 0 < ic.N) (rho c t : K) :
    heatCapacityS sf ic element doulist x rho c t =
      elemM 1 (scalarCore fun X => heatCapacity sf ic X rho c t) element doulist x := by
  refine (head_eq (fun X => heatCapacity sf ic X rho c t) dense (fun X nte => _ >>= fun Ke => pure (Ke, nte))
    (fun he X nte => ?_) fun he X nte => ?_).trans (scalar_head _ _ _ _)
  · subst he
    rw [C01_mat_zeros]
    refine loop_tail (loopS_eq dense _ _ (fun S g => ?_) 0)
    refine bind_value (C01_mat_mul _ _) (bind_value (C02_determinant _) (bind_value (C01_vec_transpose _)
      (bind_value (C01_outer _ _) (bind_value (scaled_dense _ _) ?_))))
    rw [C01_mat_add]
    refine congrArg (fun M => some (dense (S + M))) ?_
    rw [smul_smul]
    have : ∀ a b : K, a = b → a • (Matrix.of fun i j => sf.N (ic.points g) i * sf.N (ic.points g) j) =
      b • vecMulVec (sf.N (ic.points g)) (sf.N (ic.points g)) := fun a b h => by rw [h]; rfl
    refine this _ _ ?_
    simp only [List.prod_cons, List.prod_nil, jac]
    ring
  · refine congrArg (· >>= _) (foldlM_fails (List.mem_finRange ⟨0, hN⟩) (fun s => ?_) _)
    simp only []
    rw [mul_mismatch _ _ he.symm]
    rfl

end Plane

/-- **C137**: `SolidLinearIsotropicElastic`. -/
theorem C137_solid [DecidableEq K] (sf : SF K 3 n) (ic : IC K 3) (element doulist : List ℕ)
    (x : List (Vec K)) (hN : 0 < ic.N) (E V : K) :
    solidStiffnessS sf ic element doulist x E V =
      elemM 3 (fun X => solidStiffness sf ic X E V) element doulist x := by
  refine head_eq _ flatM (fun X nte => solidCS E V >>= fun C => _ >>= fun Ke => pure (Ke, nte))
    (fun he X nte => ?_) fun he X nte => ?_
  · subst he
    refine bind_sim (solidCS_eq E V) fun C => ?_
    rw [zeros_flatM]
    refine loop_tail (loopS_eq flatM _ _ (fun S g => ?_) 0)
    refine (gradS_bind sf X (ic.points g) _).trans ?_
    cases grad? sf X (ic.points g) with
    | none => rfl
    | some G =>
      refine bind_value rfl (bind_value (solidBS_eq G) (bind_value (C01_mat_transpose _)
        (bind_value (C01_mat_mul _ _) (bind_value (C01_mat_mul _ _) (bind_value (scaled_dense _ _) ?_)))))
      rw [congr_flat, flatM_add]
      refine congrArg (fun M => some (flatM (S + M))) ?_
      congr 1
      simp only [List.prod_cons, List.prod_nil]
      ring
  · rw [solidCS_eq]
    cases solidC E V with
    | none => rfl
    | some C =>
      refine congrArg (· >>= _) (foldlM_fails (List.mem_finRange ⟨0, hN⟩) (fun s => ?_) _)
      simp only []
      rw [mul_mismatch _ _ he.symm]
      rfl

/-- **C137**: `PlaneStrainSurfaceForce` and `PlaneStressSurfaceForce`. -/
theorem C137_planeSurfaceForce (sf : SF ℝ 1 n) (ic : IC ℝ 1) (element doulist : List ℕ) (x : List (Vec ℝ))
    (hN : 0 < ic.N) {f : Vec ℝ → Vec ℝ} {f' : (Fin 2 → ℝ) → Fin 2 → ℝ}
    (hf : ∀ v, f (densev v) = densev (f' v)) (t : ℝ) :
    planeSurfaceForceS sf ic element doulist x f t =
      elemV 2 (fun X => planeSurfaceForce sf ic X f' t) element doulist x := by
  refine head_eq _ flatV (fun X nte => _ >>= fun Fe => pure (Fe, nte)) (fun he X nte => ?_) fun he X nte => ?_
  · subst he
    rw [zeros_flatV]
    refine loop_tail (loopS_eq flatV _ _ (fun S g => ?_) 0)
    refine bind_value (C01_mat_transpose _) (bind_value (C01_mat_vec _ _) (bind_value (C01_mat_mul _ _)
      (bind_value (C01_mat_transpose _) (bind_value (C01_mat_mul _ _)
        (bind_value (C01_mat_read _ (0 : Fin 1) (0 : Fin 1))
        (bind_value (planeNS_eq _) (bind_value (C01_mat_transpose _) ?_)))))))
    rw [hf]
    refine bind_value (C01_mat_vec _ _) (bind_value (scaledV_dense _ _) ?_)
    refine (congrArg _ (congr_flatV _ _ _)).trans ((flatV_add _ _).trans ?_)
    refine congrArg (fun M => some (flatV (S + M))) ?_
    rw [smul_smul]
    congr 1
    simp only [List.prod_cons, List.prod_nil, lineElement]
    ring
  · refine congrArg (· >>= _) (foldlM_fails (List.mem_finRange ⟨0, hN⟩) (fun s => ?_) _)
    simp only []
    refine bind_value (C01_mat_transpose _) ?_
    rw [mulVec_mismatch _ _ he]
    rfl

/-- **C137**: `HeatTransferSurfaceFlux`, through the conversions between vectors and one-column
matrices. -/
theorem C137_heatSurfaceFlux (sf : SF ℝ 1 n) (ic : IC ℝ 1) (element doulist : List ℕ) (x : List (Vec ℝ))
    (hN : 0 < ic.N) {f : Vec ℝ → ℝ} {f' : (Fin 2 → ℝ) → ℝ} (hf : ∀ v, f (densev v) = f' v) (t : ℝ) :
    heatSurfaceFluxS sf ic element doulist x f t =
      elemV 1 (fun X => (heatSurfaceFlux sf ic X f' t).map fun v => fun p => v p.1) element doulist x := by
  refine (head_eq (fun X => heatSurfaceFlux sf ic X f' t) densev (fun X nte => _ >>= fun Fe => pure (Fe, nte))
    (fun he X nte => ?_) fun he X nte => ?_).trans (scalar_headV _ _ _ _)
  · subst he
    rw [C01_vec_zeros]
    refine loop_tail (loopS_eq densev _ _ (fun S g => ?_) 0)
    refine bind_value (C01_mat_of_vec _) (bind_value (C01_mat_transpose _) (bind_value (C01_mat_mul _ _)
      (bind_value (C01_vec_of_mat _) (bind_value (C01_mat_mul _ _)
      (bind_value (C01_mat_transpose _) (bind_value (C01_mat_mul _ _)
        (bind_value (C01_mat_read _ (0 : Fin 1) (0 : Fin 1))
        (bind_value (scaled_dense _ _) (bind_value (C01_vec_of_mat _) ?_)))))))))
    rw [C01_vec_add, hf]
    refine congrArg (fun M => some (densev (S + M))) ?_
    funext i
    simp only [List.prod_cons, List.prod_nil, lineElement, Matrix.smul_apply, Matrix.of_apply, smul_eq_mul,
      Pi.smul_apply]
    have : (fun i => ((X)ᵀ * Matrix.of fun i (_ : Fin 1) => sf.N (ic.points g) i) i 0) =
      Xᵀ *ᵥ sf.N (ic.points g) := by
      funext i; simp [Matrix.mul_apply, Matrix.mulVec, dotProduct]
    rw [this]
    ring
  · refine congrArg (· >>= _) (foldlM_fails (List.mem_finRange ⟨0, hN⟩) (fun s => ?_) _)
    simp only []
    refine bind_value (C01_mat_of_vec _) (bind_value (C01_mat_transpose _) ?_)
    rw [mul_mismatch _ _ he]
    rfl

/-! ### What the stored matrices inherit -/

/-- **C137**: the matrix in storage is symmetric: `Ke(i, j)` and `Ke(j, i)` are the same number, or both
out of range. -/
theorem C137_symmetric [DecidableEq K] {sf : SF K 2 n} {ic : IC K 2} (hN : 0 < ic.N) {element doulist : List ℕ}
    {x : List (Vec K)} {E V t : K} {Ke : Mat K} {nte : List (List (ℕ × ℕ))}
    (h : planeStrainStiffnessS sf ic element doulist x E V t = some (Ke, nte) ∨
      planeStressStiffnessS sf ic element doulist x E V t = some (Ke, nte) ∨
      planeStrainStiffnessWilsonTaylorS sf ic element doulist x E V t = some (Ke, nte)) (i j : ℤ) :
    Ke.at? i j = Ke.at? j i := by
  rcases h with h | h | h
  · rw [C137_planeStrain _ _ _ _ _ hN] at h
    exact C32_returned (fun _ _ => C32_planeStrain) h i j
  · rw [C137_planeStress _ _ _ _ _ hN] at h
    exact C32_returned (fun _ _ => C32_planeStress) h i j
  · rw [C137_planeStrainWilsonTaylor _ _ _ _ _ hN] at h
    exact C32_returned (fun _ _ => C32_WilsonTaylor) h i j

/-- **C137**: `Ke` times the stored vector of a rigid motion of the element's nodes is the zero vector. -/
theorem C137_rigid [DecidableEq K] {sf : SF K 2 n} (hc : Complete sf) {ic : IC K 2} (hN : 0 < ic.N)
    {element doulist : List ℕ} {x : List (Vec K)} {E V t : K} {Ke : Mat K} {nte : List (List (ℕ × ℕ))}
    (h : planeStrainStiffnessS sf ic element doulist x E V t = some (Ke, nte))
    {X : Matrix (Fin n) (Fin 2) K} (hX : gather x element n 2 = some X) (a : Fin 2 → K) (w : K) :
    Ke.mulVec (flatV (rigid2 X a w)) = some (Vec.zeros (2 * element.length)) := by
  rw [C137_planeStrain _ _ _ _ _ hN] at h
  simp only [elemM, Option.bind_eq_bind, Option.pure_def, Option.bind_eq_some_iff,
    Option.some.injEq, Prod.mk.injEq] at h
  obtain ⟨_, -, X', hX', A, hA, rfl, -⟩ := h
  rw [hX] at hX'
  cases hX'
  have hl : element.length = n := by
    by_contra hne
    have hg : gather x element n 2 = none := by unfold gather; exact if_neg hne
    rw [hg] at hX
    cases hX
  have hz := C33_planeStrain hc hA a w
  rw [flatM_dense, flatV_densev, C01_mat_vec, hl, zeros_flatV, flatV_densev]
  refine congrArg (fun v => some (densev v)) ?_
  rw [Matrix.submatrix_mulVec_equiv]
  rw [Function.comp_assoc, Equiv.symm_symm, Equiv.symm_comp_self, Function.comp_id, hz]

/-- **C137**: for a rule without points the assertion on the number of nodes is never reached: the zero
matrix of any size comes back.  The rules of the library have points. -/
theorem C137_no_points [DecidableEq K] (sf : SF K 2 n) {ic : IC K 2} (hN : ic.N = 0) {element : List ℕ} (dof : ℕ)
    {x : List (Vec K)} (hx : (coordsS x element 2).isSome) (alpha t : K) :
    (heatTransferS sf ic element [dof] x alpha t).map Prod.fst =
      some (Mat.zeros element.length element.length) := by
  obtain ⟨N, pts, wts⟩ := ic
  simp only at hN
  subst hN
  obtain ⟨X, hX⟩ := Option.isSome_iff_exists.1 hx
  unfold heatTransferS
  rw [tableS_eq, hX]
  rfl

/-! ### Cases -/

example (x : List (Vec ℝ)) (E V t : ℝ) :
    planeStrainStiffnessS SF.square4 IC.gauss4Square [4, 5, 9, 8] [0, 1] x E V t =
      elemM 2 (fun X => planeStrainStiffness SF.square4 IC.gauss4Square X E V t) [4, 5, 9, 8] [0, 1] x :=
  C137_planeStrain _ _ _ _ _ (by norm_num [IC.gauss4Square]) E V t

/-- Three nodes handed to the routine for four: the product `dNdr*X` fails its assertion. -/
example (x : List (Vec ℝ)) (E V t : ℝ) :
    planeStrainStiffnessS SF.square4 IC.gauss4Square [4, 5, 9] [0, 1] x E V t = none := by
  rw [C137_planeStrain _ _ _ _ _ (by norm_num [IC.gauss4Square])]
  rfl

/-- A matrix `D` of the wrong size. -/
example (x : List (Vec ℝ)) (t : ℝ) :
    planeStiffnessS SF.square4 IC.gauss4Square [4, 5, 9, 8] [0, 1] x (Mat.zeros 4 4) t = none :=
  (C137_planeStiffness _ _ _ _ _ (by norm_num [IC.gauss4Square]) (Mat.zeros 4 4)
    (by simp [Mat.WF, Mat.zeros]) t).2 fun ⟨M, hM⟩ => by
    have := congrArg Mat.row hM
    simp [Mat.zeros] at this

/-- Gravity on an element, as a function of the class and as a function of two coordinates. -/
example (x : List (Vec ℝ)) (t : ℝ) :
    planeBodyForceS SF.triangle3 IC.gauss1Triangle [0, 1, 2] [0, 1] x (fun _ => ⟨[0, -9.8]⟩) t =
      elemV 2 (fun X => planeBodyForce SF.triangle3 IC.gauss1Triangle X (fun _ => ![0, -9.8]) t)
        [0, 1, 2] [0, 1] x :=
  C137_planeBodyForce _ _ _ _ _ (by norm_num [IC.gauss1Triangle]) (fun v => by simp [densev, List.ofFn_succ]) t

end Pansfem
