/-
C140: the routines of ReactionDiffusion.h, Advection.h and Homogenization.h on objects of the classes
`Matrix` and `Vector`, statement by statement, are the routines of `Verif/Model/Elastic.lean` and
`Fluid.lean` laid out in storage.
-/
import Verif.Lemmas.ElementStorageScalar
import Verif.Props.C32_Symmetry

noncomputable section

namespace Pansfem

open Matrix

variable {K : Type} [Field K] {n : ℕ}

section Plane
variable [DecidableEq K] (sf : SF K 2 n) (ic icV icD : IC K 2) (element doulist : List ℕ) (x : List (Vec K))

/-- **C140**: `ReactionDiffusionConsistentMass`; it fails where the Jacobian is singular although the
gradient is not used. -/
theorem C140_consistentMass (hN : 0 < ic.N) :
    rdConsistentMassS sf ic element doulist x =
      elemM 1 (scalarCore fun X => rdConsistentMass sf ic X) element doulist x := by
  refine (head_eq (fun X => rdConsistentMass sf ic X) dense (fun X nte => _ >>= fun Ke => pure (Ke, nte))
    (fun he X nte => ?_) fun he X nte => ?_).trans (scalar_head _ _ _ _)
  · subst he
    rw [C01_mat_zeros]
    refine loop_tail (loopS_eq dense _ _ (fun S g => ?_) 0)
    refine (gradS_bind sf X (ic.points g) _).trans ?_
    cases grad? sf X (ic.points g) with
    | none => rfl
    | some G =>
      refine bind_value rfl (bind_value (C01_vec_transpose _)
        (bind_value (C01_outer _ _) (bind_value (scaled_dense _ _) ?_)))
      rw [C01_mat_add, outer_vecMulVec]
      refine congrArg (fun c : K => some (dense (S + c • vecMulVec (sf.N (ic.points g)) (sf.N (ic.points g))))) ?_
      simp only [List.prod_cons, List.prod_nil]
      ring
  · refine congrArg (· >>= _) (foldlM_fails (List.mem_finRange ⟨0, hN⟩) (fun s => ?_) _)
    simp only []
    rw [mul_mismatch _ _ he.symm]
    rfl

/-- **C140**: `ReactionDiffusionLumpedMass`: the identity times the area over the number of nodes. -/
theorem C140_lumpedMass (hN : 0 < ic.N) :
    rdLumpedMassS sf ic element doulist x =
      elemM 1 (scalarCore fun X => rdLumpedMass sf ic X) element doulist x := by
  refine Eq.trans ?_ ((head_eq (fun X => rdLumpedMass sf ic X) dense (fun X nte =>
    (List.finRange ic.N).foldlM (fun Area g => do
      let dXdr ← (dense (sf.dNdr (ic.points g))).mul X
      let J ← dXdr.determinant
      return Area + J * ic.weights g 0 * ic.weights g 1) 0 >>= fun Area =>
    div? Area (element.length : K) >>= fun c =>
    (dense (1 : Matrix (Fin element.length) (Fin element.length) K)).smul c >>= fun Me => pure (Me, nte))
    (fun he X nte => ?_) fun he X nte => ?_).trans (scalar_head _ _ _ _))
  · unfold rdLumpedMassS
    rw [C01_identity]
    rfl
  · subst he
    have ha : (List.finRange ic.N).foldlM (fun (Area : K) g => do
        let dXdr ← (dense (sf.dNdr (ic.points g))).mul (dense X)
        let J ← dXdr.determinant
        return Area + J * ic.weights g 0 * ic.weights g 1) 0 = some (area sf ic X) := by
      have h := loopS_eq (id : K → K) (fun g => some ((jac sf X (ic.points g)).det * ic.weights g 0 * ic.weights g 1))
        (fun Area g => do
          let dXdr ← (dense (sf.dNdr (ic.points g))).mul (dense X)
          let J ← dXdr.determinant
          return Area + J * ic.weights g 0 * ic.weights g 1) (fun S g =>
          bind_value (C01_mat_mul _ _) (bind_value (C02_determinant _) rfl)) 0
      refine h.trans ?_
      rw [gauss_eq_some.2 ⟨fun g => (jac sf X (ic.points g)).det * ic.weights g 0 * ic.weights g 1,
        fun g => rfl, rfl⟩]
      exact congrArg some (zero_add _)
    refine bind_value ha ?_
    unfold rdLumpedMass
    cases div? (area sf ic X) (element.length : K) with
    | none => rfl
    | some c => exact bind_value rfl (bind_value (C01_mat_smul _ _) rfl)
  · refine congrArg (· >>= _) (foldlM_fails (List.mem_finRange ⟨0, hN⟩) (fun s => ?_) _)
    rw [mul_mismatch _ _ he.symm]
    rfl

/-- **C140**: `ReactionDiffusionStiffness` and `Diffusion`. -/
theorem C140_diffusion (hN : 0 < ic.N) (D : K) :
    rdStiffnessS sf ic element doulist x D =
      elemM 1 (scalarCore fun X => rdStiffness sf ic X D) element doulist x := by
  refine (head_eq (fun X => rdStiffness sf ic X D) dense (fun X nte => _ >>= fun Ke => pure (Ke, nte))
    (fun he X nte => ?_) fun he X nte => ?_).trans (scalar_head _ _ _ _)
  · subst he
    rw [C01_mat_zeros]
    refine loop_tail (loopS_eq dense _ _ (fun S g => ?_) 0)
    refine (gradS_bind sf X (ic.points g) _).trans ?_
    cases grad? sf X (ic.points g) with
    | none => rfl
    | some G =>
      refine bind_value rfl (bind_value (C01_mat_transpose _) (bind_value (C01_mat_smul _ _)
        (bind_value (C01_mat_mul _ _) (bind_value (scaled_dense _ _) ?_))))
      rw [C01_mat_add, Matrix.smul_mul]
      refine congrArg (fun c : K => some (dense (S + c • D • (Gᵀ * G)))) ?_
      simp only [List.prod_cons, List.prod_nil]
      ring
  · refine congrArg (· >>= _) (foldlM_fails (List.mem_finRange ⟨0, hN⟩) (fun s => ?_) _)
    simp only []
    rw [mul_mismatch _ _ he.symm]
    rfl

/-- **C140**: `Advection`. -/
theorem C140_advection (hN : 0 < ic.N) (cx cy : K) :
    advectionS sf ic element doulist x cx cy =
      elemM 1 (scalarCore fun X => advection sf ic X ![cx, cy]) element doulist x := by
  refine (head_eq (fun X => advection sf ic X ![cx, cy]) dense (fun X nte => _ >>= fun Ke => pure (Ke, nte))
    (fun he X nte => ?_) fun he X nte => ?_).trans (scalar_head _ _ _ _)
  · subst he
    rw [C01_mat_zeros]
    refine loop_tail (loopS_eq dense _ _ (fun S g => ?_) 0)
    refine (gradS_bind sf X (ic.points g) _).trans ?_
    cases grad? sf X (ic.points g) with
    | none => rfl
    | some G =>
      rw [ofList_pair]
      refine bind_value rfl (bind_value (C01_vec_transpose _) (bind_value (C01_outer _ _)
        (bind_value (C01_mat_mul _ _) (bind_value (scaled_dense _ _) ?_))))
      rw [C01_mat_add, outer_vecMulVec, Matrix.vecMulVec_mul]
      refine congrArg (fun c : K => some (dense (S + c • vecMulVec (sf.N (ic.points g)) (![cx, cy] ᵥ* G)))) ?_
      simp only [List.prod_cons, List.prod_nil]
      ring
  · refine congrArg (· >>= _) (foldlM_fails (List.mem_finRange ⟨0, hN⟩) (fun s => ?_) _)
    simp only []
    rw [mul_mismatch _ _ he.symm]
    rfl

omit [DecidableEq K] in
/-- **C140**: `Mass`. -/
theorem C140_mass (hN : 0 < ic.N) :
    advectionMassS sf ic element doulist x =
      elemM 1 (scalarCore fun X => advectionMass sf ic X) element doulist x := by
  refine (head_eq (fun X => advectionMass sf ic X) dense (fun X nte => _ >>= fun Ke => pure (Ke, nte))
    (fun he X nte => ?_) fun he X nte => ?_).trans (scalar_head _ _ _ _)
  · subst he
    rw [C01_mat_zeros]
    refine loop_tail (loopS_eq dense _ _ (fun S g => ?_) 0)
    refine bind_value (C01_mat_mul _ _) (bind_value (C02_determinant _) (bind_value (C01_vec_transpose _)
      (bind_value (C01_outer _ _) (bind_value (scaled_dense _ _) ?_))))
    rw [C01_mat_add, outer_vecMulVec]
    refine congrArg (fun c : K => some (dense (S + c • vecMulVec (sf.N (ic.points g)) (sf.N (ic.points g))))) ?_
    simp only [List.prod_cons, List.prod_nil, jac]
    ring
  · refine congrArg (· >>= _) (foldlM_fails (List.mem_finRange ⟨0, hN⟩) (fun s => ?_) _)
    simp only []
    rw [mul_mismatch _ _ he.symm]
    rfl

/-- **C140**: `ReactionDiffusionReaction`, for every reaction given as a function of value and gradient. -/
theorem C140_reaction (hN : 0 < ic.N) (u : List (Vec K)) {f : K → Vec K → K} {f' : K → (Fin 2 → K) → K}
    (hf : ∀ c v, f c (densev v) = f' c v) :
    rdReactionS sf ic element doulist x u f = (do
      let U ← gather u element n 1
      elemV 1 (fun X => (rdReaction sf ic X (fun i => U i 0) f').map fun v => fun p => v p.1)
        element doulist x) := by
  have hh := fun U : Vec K => fun (core : Matrix (Fin n) (Fin 2) K → Option (Fin n → K)) h1 h2 =>
    (head_eq (k := 1) (element := element) (doulist := doulist) (x := x) core densev (fun X nte =>
      (List.finRange ic.N).foldlM (fun Fe g => do
        let N := densev (sf.N (ic.points g))
        let dNdr := dense (sf.dNdr (ic.points g))
        let dXdr ← dNdr.mul X
        let J ← dXdr.determinant
        let dNdX ← (← dXdr.inverse).mul dNdr
        let u ← N.dot U
        let dudX ← dNdX.mulVec U
        Fe.add (← scaledV N [f u dudX, J, ic.weights g 0, ic.weights g 1])) (Vec.zeros element.length) >>=
      fun Fe => pure (Fe, nte)) h1 h2).trans (scalar_headV core element doulist x)
  have hsw : rdReactionS sf ic element doulist x u f = (nodalS u element >>= fun U =>
      tableS 1 element doulist >>= fun nte => coordsS x element 2 >>= fun X =>
      (List.finRange ic.N).foldlM (fun Fe g => do
        let N := densev (sf.N (ic.points g))
        let dNdr := dense (sf.dNdr (ic.points g))
        let dXdr ← dNdr.mul X
        let J ← dXdr.determinant
        let dNdX ← (← dXdr.inverse).mul dNdr
        let u ← N.dot U
        let dudX ← dNdX.mulVec U
        Fe.add (← scaledV N [f u dudX, J, ic.weights g 0, ic.weights g 1])) (Vec.zeros element.length) >>=
      fun Fe => pure (Fe, nte)) := by
    unfold rdReactionS
    cases nodalS u element with
    | none =>
      cases tableS 1 element doulist with
      | none => rfl
      | some t => cases coordsS x element 2 <;> rfl
    | some U => rfl
  rw [hsw, nodalS_eq]
  by_cases hn : element.length = n
  · subst hn
    cases gather u element element.length 1 with
    | none => rfl
    | some U =>
      refine hh (densev fun i => U i 0) _ (fun _ X nte => ?_) fun he => absurd rfl he
      rw [C01_vec_zeros]
      refine loop_tail (loopS_eq densev _ _ (fun S g => ?_) 0)
      refine (gradS_bind sf X (ic.points g) _).trans ?_
      cases grad? sf X (ic.points g) with
      | none => rfl
      | some G =>
        refine bind_value rfl (bind_value (C01_vec_dot _ _) (bind_value (C01_mat_vec _ _) ?_))
        rw [hf]
        refine bind_value (scaledV_dense _ _) ?_
        rw [C01_vec_add]
        refine congrArg (fun M => some (densev (S + M))) ?_
        rw [smul_smul]
        refine congrArg (· • sf.N (ic.points g)) ?_
        simp only [List.prod_cons, List.prod_nil, dotProduct]
        ring
  · have hg : gather u element n 1 = none := by unfold gather; exact if_neg hn
    rw [hg]
    cases gather u element element.length 1 with
    | none => rfl
    | some U =>
      refine (hh (densev fun i => U i 0) (fun _ => none) (fun he => absurd he hn) fun he X nte => ?_).trans ?_
      · refine congrArg (· >>= _) (foldlM_fails (List.mem_finRange ⟨0, hN⟩) (fun s => ?_) _)
        simp only []
        rw [mul_mismatch _ _ he.symm]
        rfl
      · unfold elemV
        cases interleaved 1 element.length doulist with
        | none => rfl
        | some t => cases gather x element n 2 <;> rfl

/-! ### Homogenisation -/

/-- **C140**: `PlaneStiffnessBbar` with a 3 × 3 matrix `D`. -/
theorem C140_planeBbar (hV : 0 < icV.N) (D : Matrix (Fin 3) (Fin 3) K) (t : K) :
    planeStiffnessBbarS sf icV icD element doulist x (dense D) t =
      elemM 2 (fun X => planeStiffnessBbar sf icV icD X D t) element doulist x := by
  refine head_eq _ flatM (fun X nte =>
    planeLoopS sf icV element planeBvolS X (dense D) t (Mat.zeros (2 * element.length) (2 * element.length)) >>=
      fun Ke => planeLoopS sf icD element planeBdevS X (dense D) t Ke >>= fun Ke => pure (Ke, nte))
    (fun he X nte => ?_) fun he X nte => ?_
  · subst he
    rw [zeros_flatM, planeLoopS_eq planeBvolS_eq rfl]
    refine bind_sim rfl fun S => ?_
    rw [zero_add, planeLoopS_eq planeBdevS_eq rfl]
    cases loop2 sf icD X fun _ dNdX => some (t • ((planeBdev dNdX)ᵀ * D * planeBdev dNdX)) with
    | none => rfl
    | some S => rfl
  · exact congrArg (· >>= _) (planeLoopS_none planeBvolS hV he X (dense D) t _)

/-- **C140**: `PlaneStiffnessWilsonTaylor` with a 3 × 3 matrix `D`. -/
theorem C140_planeWilsonTaylor (hN : 0 < ic.N) (D : Matrix (Fin 3) (Fin 3) K) (t : K) :
    planeStiffnessWilsonTaylorS sf ic element doulist x (dense D) t =
      elemM 2 (fun X => planeStiffnessWilsonTaylor sf ic X D t) element doulist x := by
  refine head_eq _ flatM (fun X nte =>
    wilsonTaylorLoopS sf ic element X (dense D) t (Mat.zeros (2 * element.length) (2 * element.length),
      Mat.zeros 4 4, Mat.zeros 4 (2 * element.length)) >>= fun s =>
    s.2.2.transpose >>= fun T => s.2.1.inverse >>= fun I => T.mul I >>= fun U => U.mul s.2.2 >>= fun W =>
    s.1.sub W >>= fun Ke => pure (Ke, nte)) (fun he X nte => ?_) fun he X nte => ?_
  · subst he
    rw [wilsonTaylorLoopS_eq rfl]
    unfold planeStiffnessWilsonTaylor
    refine bind_sim3 fun Ke Keaa Kead => ?_
    refine bind_value (C01_mat_transpose _) ?_
    have hi := C03_inverse (n := 3) Keaa
    unfold inv?
    by_cases h : Keaa.det = 0
    · rw [if_pos h] at hi ⊢
      exact congrArg (· >>= _) hi
    · rw [if_neg h] at hi ⊢
      refine bind_value hi (bind_value (C01_mat_mul _ _) (bind_value (C01_mat_mul _ _) ?_))
      show ((flatM Ke).sub _ >>= _) = _
      rw [flatM_dense]
      refine bind_value (C01_mat_sub _ _) ?_
      refine congrArg (fun A => some (A, nte)) ?_
      rw [flatM_dense]
      rfl
  · exact congrArg (· >>= _) (wilsonTaylorLoopS_none hN he X (dense D) t _)

/-- **C140**: nothing is asserted about the size of `D` there, but a product fails: no result comes back
for a `D` that is not 3 × 3. -/
theorem C140_wrong_size (hV : 0 < icV.N) (hN : 0 < ic.N) {r c : ℕ} (D : Matrix (Fin r) (Fin c) K)
    (hD : ¬ (r = 3 ∧ c = 3)) (t : K) :
    planeStiffnessBbarS sf icV icD element doulist x (dense D) t = none ∧
    planeStiffnessWilsonTaylorS sf ic element doulist x (dense D) t = none := by
  have hmul : ∀ {k : ℕ} (B : Matrix (Fin 3) (Fin k) K),
      ((dense Bᵀ).mul (dense D) >>= fun A => A.mul (dense B)) = none := by
    intro k B
    by_cases hr : r = 3
    · subst hr
      have hc : c ≠ 3 := fun h => hD ⟨rfl, h⟩
      refine bind_value (C01_mat_mul _ _) ?_
      exact mul_mismatch _ _ hc
    · rw [mul_mismatch _ _ (Ne.symm hr)]
      rfl
  have hb : ∀ {T : Type} {a : Option (Mat K)} {f : Mat K → Option (Mat K)} {h : Mat K → Option T},
      (a >>= f) = none → (a >>= fun y => f y >>= h) = none := by
    intro T a f h e
    cases a with
    | none => rfl
    | some y => exact congrArg (· >>= h) e
  constructor
  · refine (head_eq (n := n) (fun _ => (none : Option (Mat K))) id (fun X nte =>
      planeLoopS sf icV element planeBvolS X (dense D) t (Mat.zeros (2 * element.length) (2 * element.length)) >>=
        fun Ke => planeLoopS sf icD element planeBdevS X (dense D) t Ke >>= fun Ke => pure (Ke, nte))
      (fun he X nte => ?_) fun he X nte => ?_).trans ?_
    · subst he
      refine congrArg (· >>= _) (foldlM_fails (List.mem_finRange ⟨0, hV⟩) (fun s => ?_) _)
      refine (gradS_bind sf X (icV.points ⟨0, hV⟩) _).trans ?_
      cases grad? sf X (icV.points ⟨0, hV⟩) with
      | none => rfl
      | some G =>
        exact bind_value rfl (bind_value (planeBvolS_eq G) (bind_value (C01_mat_transpose _) (hb (hmul _))))
    · exact congrArg (· >>= _) (planeLoopS_none planeBvolS hV he X (dense D) t _)
    · cases interleaved 2 element.length doulist with
      | none => rfl
      | some _ => cases gather x element n 2 <;> rfl
  · refine (head_eq (n := n) (fun _ => (none : Option (Mat K))) id (fun X nte =>
      wilsonTaylorLoopS sf ic element X (dense D) t (Mat.zeros (2 * element.length) (2 * element.length),
        Mat.zeros 4 4, Mat.zeros 4 (2 * element.length)) >>= fun s =>
      s.2.2.transpose >>= fun T => s.2.1.inverse >>= fun I => T.mul I >>= fun U => U.mul s.2.2 >>= fun W =>
      s.1.sub W >>= fun Ke => pure (Ke, nte)) (fun he X nte => ?_) fun he X nte => ?_).trans ?_
    · subst he
      refine congrArg (· >>= _) (foldlM_fails (List.mem_finRange ⟨0, hN⟩) (fun s => ?_) _)
      unfold wilsonTaylorStepS
      simp only []
      have hi := C03_inverse (sf.dNdr (ic.points ⟨0, hN⟩) * X)
      refine bind_value (C01_mat_mul _ _) (bind_value (C02_determinant _) ?_)
      by_cases h : (sf.dNdr (ic.points ⟨0, hN⟩) * X).det = 0
      · rw [if_pos h] at hi
        rw [hi]; rfl
      · rw [if_neg h] at hi
        exact bind_value hi (bind_value (C01_mat_mul _ _) (bind_value (planeBS_eq _) (bind_value (dPdrS_eq _)
          (bind_value hi (bind_value (C01_mat_mul _ _) (bind_value (planeGS_eq _)
          (bind_value (C01_mat_transpose _) (hb (hmul _)))))))))
    · exact congrArg (· >>= _) (wilsonTaylorLoopS_none hN he X (dense D) t _)
    · cases interleaved 2 element.length doulist with
      | none => rfl
      | some _ => cases gather x element n 2 <;> rfl

end Plane

section Cell
variable (sf : SF ℝ 2 n) (ic : IC ℝ 2) (element doulist : List ℕ) (x : List (Vec ℝ))

/-- **C140**: `HomogenizePlaneStrainBodyForce`: three columns, one for each macroscopic strain. -/
theorem C140_homogenizeBodyForce (hN : 0 < ic.N) (E V t : ℝ) :
    homogenizeBodyForceS sf ic element doulist x E V t = (do
      let nte ← interleaved 2 element.length doulist
      let X ← gather x element n 2
      return (flatC (← homogenizeBodyForce sf ic X E V t), nte)) := by
  refine head_eq (fun X => homogenizeBodyForce sf ic X E V t) flatC (fun X nte => planeStrainDS E V >>= fun D =>
    _ >>= fun Fes => pure (Fes, nte)) (fun he X nte => ?_) fun he X nte => ?_
  · subst he
    refine bind_sim (planeStrainDS_eq E V) fun D => ?_
    have hz : Mat.zeros (2 * element.length) 3 = flatC (0 : Matrix (Fin element.length × Fin 2) (Fin 3) ℝ) := by
      rw [flatC_stored, Nat.mul_comm, C01_mat_zeros]
      rfl
    rw [hz]
    refine loop_tail (loopS_eq flatC _ _ (fun S g => ?_) 0)
    refine (gradS_bind sf X (ic.points g) _).trans ?_
    cases grad? sf X (ic.points g) with
    | none => rfl
    | some G =>
      refine bind_value rfl (bind_value (planeBS_eq G) (bind_value (C01_mat_transpose _) (bind_value (C01_mat_mul _ _)
        (bind_value (scaled_dense _ _) ?_))))
      rw [flatC_stored]
      refine (C01_mat_add _ _).trans ?_
      have hp : [(jac sf X (ic.points g)).det, t, ic.weights g 0, ic.weights g 1].prod =
          (jac sf X (ic.points g)).det * ic.weights g 0 * ic.weights g 1 * t := by
        simp only [List.prod_cons, List.prod_nil]
        ring
      rw [hp]
      show some _ = some (flatC _)
      rw [flatC_stored, smul_smul]
      rfl
  · rw [planeStrainDS_eq]
    cases planeStrainD E V with
    | none => rfl
    | some C =>
      refine congrArg (· >>= _) (foldlM_fails (List.mem_finRange ⟨0, hN⟩) (fun s => ?_) _)
      simp only []
      rw [mul_mismatch _ _ he.symm]
      rfl

/-- **C140**: `HomogenizePlaneStrainConstitutive` and `HomogenizePlaneStrainCheck` for the three
characteristic displacements: the two matrices of `cellValues`, the pass of the sample program. -/
theorem C140_homogenizeValues (hN : 0 < ic.N) (chi : Fin 3 → List (Vec ℝ)) (E V t : ℝ) :
    (do return (← homogenizeConstitutiveS sf ic element x (chi 0) (chi 1) (chi 2) E V t,
      ← homogenizeCheckS sf ic element x (chi 0) (chi 1) (chi 2) t)) =
    (cellValues sf ic x chi E V t element).map fun p => (dense p.1, dense p.2) := by
  unfold homogenizeConstitutiveS homogenizeCheckS cellValues
  rw [coordsS_eq, chiS_eq, planeStrainDS_eq, C01_identity, C01_mat_zeros]
  by_cases hn : element.length = n
  · subst hn
    cases gather x element element.length 2 with
    | none => rfl
    | some X =>
      cases cellCHI chi element element.length with
      | none => rfl
      | some CHI =>
        have hp : ∀ g, [(jac sf X (ic.points g)).det, t, ic.weights g 0, ic.weights g 1].prod =
            (jac sf X (ic.points g)).det * ic.weights g 0 * ic.weights g 1 * t := by
          intro g
          simp only [List.prod_cons, List.prod_nil]
          ring
        have h1 : ∀ D : Matrix (Fin 3) (Fin 3) ℝ, (List.finRange ic.N).foldlM (fun C g => do
            let dNdr := dense (sf.dNdr (ic.points g))
            let dXdr ← dNdr.mul (dense X)
            let J ← dXdr.determinant
            let dNdX ← (← dXdr.inverse).mul dNdr
            let B ← planeBS element.length dNdX
            C.add (← scaled (← (dense D).mul (← (dense (1 : Matrix (Fin 3) (Fin 3) ℝ)).sub (← B.mul (flatC CHI))))
              [J, t, ic.weights g 0, ic.weights g 1])) (dense (0 : Matrix (Fin 3) (Fin 3) ℝ)) =
            (loop2 sf ic X fun _ dNdX => some (t • (D * (1 - planeB dNdX * CHI)))).map fun S => dense (0 + S) := by
          intro D
          refine loopS_eq dense _ _ (fun S g => ?_) 0
          refine (gradS_bind sf X (ic.points g) _).trans ?_
          cases grad? sf X (ic.points g) with
          | none => rfl
          | some G =>
            rw [flatC_stored]
            refine bind_value rfl (bind_value (planeBS_eq G) (bind_value (C01_mat_mul _ _) (bind_value (C01_mat_sub _ _)
              (bind_value (C01_mat_mul _ _) (bind_value (scaled_dense _ _) ?_)))))
            rw [C01_mat_add, hp, Matrix.submatrix_mul_equiv, Matrix.submatrix_id_id]
            show some _ = some _
            rw [smul_smul]
        have h2 : (List.finRange ic.N).foldlM (fun C g => do
            let dNdr := dense (sf.dNdr (ic.points g))
            let dXdr ← dNdr.mul (dense X)
            let J ← dXdr.determinant
            let dNdX ← (← dXdr.inverse).mul dNdr
            let B ← planeBS element.length dNdX
            C.add (← scaled (← (← B.neg).mul (flatC CHI))
              [J, t, ic.weights g 0, ic.weights g 1])) (dense (0 : Matrix (Fin 3) (Fin 3) ℝ)) =
            (loop2 sf ic X fun _ dNdX => some (t • (-planeB dNdX * CHI))).map fun S => dense (0 + S) := by
          refine loopS_eq dense _ _ (fun S g => ?_) 0
          refine (gradS_bind sf X (ic.points g) _).trans ?_
          cases grad? sf X (ic.points g) with
          | none => rfl
          | some G =>
            rw [flatC_stored]
            refine bind_value rfl (bind_value (planeBS_eq G) (bind_value (C01_mat_neg _) (bind_value (C01_mat_mul _ _)
              (bind_value (scaled_dense _ _) ?_))))
            rw [C01_mat_add, hp, Matrix.neg_mul, Matrix.submatrix_mul_equiv, Matrix.submatrix_id_id]
            show some _ = some _
            rw [smul_smul, Matrix.neg_mul]
        cases hD : planeStrainD E V with
        | none =>
          unfold homogenizeConstitutive
          rw [hD]
          rfl
        | some D =>
          have e1 : homogenizeConstitutive sf ic X CHI E V t =
              loop2 sf ic X fun _ dNdX => some (t • (D * (1 - planeB dNdX * CHI))) := by
            unfold homogenizeConstitutive
            rw [hD]
            rfl
          have e2 : homogenizeCheck sf ic X CHI t = loop2 sf ic X fun _ dNdX => some (t • (-planeB dNdX * CHI)) := rfl
          refine Eq.trans ?_ (congrArg (Option.map _) (show _ = (homogenizeConstitutive sf ic X CHI E V t >>= fun a =>
            homogenizeCheck sf ic X CHI t >>= fun b => pure (a, b)) from rfl))
          rw [e1, e2]
          refine (congrArg₂ (fun (a b : Option (Mat ℝ)) => a >>= fun a => b >>= fun b => pure (a, b)) (h1 D) h2).trans ?_
          cases loop2 sf ic X fun _ dNdX => some (t • (D * (1 - planeB dNdX * CHI))) with
          | none => rfl
          | some A =>
            cases loop2 sf ic X fun _ dNdX => some (t • (-planeB dNdX * CHI)) with
            | none => rfl
            | some B =>
              show some (dense (0 + A), dense (0 + B)) = some (dense A, dense B)
              rw [zero_add, zero_add]
  · have hg : gather x element n 2 = none := by unfold gather; exact if_neg hn
    rw [hg]
    cases gather x element element.length 2 with
    | none => rfl
    | some X =>
      cases cellCHI chi element element.length with
      | none => rfl
      | some CHI =>
        cases planeStrainD E V with
        | none => rfl
        | some D =>
          refine congrArg (· >>= _) (foldlM_fails (List.mem_finRange ⟨0, hN⟩) (fun s => ?_) _)
          simp only []
          rw [mul_mismatch _ _ (Ne.symm hn)]
          rfl

end Cell

/-! ### Stabilised advection -/

section Stabilised
variable (sf : SF ℝ 2 n) (ic : IC ℝ 2) (element doulist : List ℕ) (x : List (Vec ℝ))

/-- **C140**: `AdvectionSUPG`. -/
theorem C140_supg (hN : 0 < ic.N) (ax ay k : ℝ) :
    advectionSUPGS sf ic element doulist x ax ay k =
      elemM 1 (scalarCore fun X => advectionSUPG sf ic X ![ax, ay] k) element doulist x := by
  refine (head_eq (fun X => advectionSUPG sf ic X ![ax, ay] k) dense (fun X nte => _ >>= fun Ke => pure (Ke, nte))
    (fun he X nte => ?_) fun he X nte => ?_).trans (scalar_head _ _ _ _)
  · subst he
    rw [C01_mat_zeros, ofList_pair]
    refine loop_tail (loopS_eq dense _ _ (fun S g => ?_) 0)
    refine (gradS_bind sf X (ic.points g) _).trans ?_
    cases grad? sf X (ic.points g) with
    | none => rfl
    | some G =>
      refine bind_value rfl ?_
      rw [advTauS_eq rfl]
      simp only [Option.bind_eq_bind, Option.bind_some]
      cases advTau G ![ax, ay] k with
      | none => rfl
      | some tau =>
        refine bind_value rfl (bind_value (C01_mat_transpose _) (bind_value (C01_mat_smul _ _)
          (bind_value (C01_mat_vec _ _) (bind_value (C01_vec_transpose _) (bind_value (C01_outer _ _)
          (bind_value (C01_mat_mul _ _) (bind_value (scaled_dense _ _) ?_)))))))
        rw [C01_mat_add, outer_vecMulVec, Matrix.vecMulVec_mul, Matrix.smul_mulVec, Matrix.smul_vecMulVec]
        refine congrArg (fun c : ℝ => some (dense (S + c • tau • vecMulVec (Gᵀ *ᵥ ![ax, ay]) (![ax, ay] ᵥ* G)))) ?_
        simp only [List.prod_cons, List.prod_nil]
        ring
  · refine congrArg (· >>= _) (foldlM_fails (List.mem_finRange ⟨0, hN⟩) (fun s => ?_) _)
    simp only []
    rw [mul_mismatch _ _ he.symm]
    rfl

/-- **C140**: `AdvectionShockCapturing`. -/
theorem C140_shock (hN : 0 < ic.N) (ax ay k : ℝ) :
    shockCapturingS sf ic element doulist x ax ay k =
      elemM 1 (scalarCore fun X => shockCapturing sf ic X ![ax, ay] k) element doulist x := by
  refine (head_eq (fun X => shockCapturing sf ic X ![ax, ay] k) dense (fun X nte => _ >>= fun Ke => pure (Ke, nte))
    (fun he X nte => ?_) fun he X nte => ?_).trans (scalar_head _ _ _ _)
  · subst he
    rw [C01_mat_zeros, ofList_pair]
    refine loop_tail (loopS_eq dense _ _ (fun S g => ?_) 0)
    refine (gradS_bind sf X (ic.points g) _).trans ?_
    cases grad? sf X (ic.points g) with
    | none => rfl
    | some G =>
      refine bind_value rfl ?_
      rw [shockTauS_eq rfl]
      simp only [Option.bind_eq_bind, Option.bind_some]
      cases shockTau G ![ax, ay] k with
      | none => rfl
      | some tau =>
        refine bind_value rfl (bind_value (C01_mat_transpose _) (bind_value (C01_mat_smul _ _)
          (bind_value (C01_mat_mul _ _) (bind_value (scaled_dense _ _) ?_))))
        rw [C01_mat_add, Matrix.smul_mul]
        refine congrArg (fun c : ℝ => some (dense (S + c • tau • (Gᵀ * G)))) ?_
        simp only [List.prod_cons, List.prod_nil]
        ring
  · refine congrArg (· >>= _) (foldlM_fails (List.mem_finRange ⟨0, hN⟩) (fun s => ?_) _)
    simp only []
    rw [mul_mismatch _ _ he.symm]
    rfl

/-- **C140**: `MassSUPG`. -/
theorem C140_massSUPG (hN : 0 < ic.N) (ax ay k : ℝ) :
    massSUPGS sf ic element doulist x ax ay k =
      elemM 1 (scalarCore fun X => massSUPG sf ic X ![ax, ay] k) element doulist x := by
  refine (head_eq (fun X => massSUPG sf ic X ![ax, ay] k) dense (fun X nte => _ >>= fun Ke => pure (Ke, nte))
    (fun he X nte => ?_) fun he X nte => ?_).trans (scalar_head _ _ _ _)
  · subst he
    rw [C01_mat_zeros, ofList_pair]
    refine loop_tail (loopS_eq dense _ _ (fun S g => ?_) 0)
    refine (gradS_bind sf X (ic.points g) _).trans ?_
    cases grad? sf X (ic.points g) with
    | none => rfl
    | some G =>
      refine bind_value rfl ?_
      rw [advTauS_eq rfl]
      simp only [Option.bind_eq_bind, Option.bind_some]
      cases advTau G ![ax, ay] k with
      | none => rfl
      | some tau =>
        refine bind_value rfl (bind_value (C01_mat_transpose _) (bind_value (C01_mat_smul _ _)
          (bind_value (C01_mat_vec _ _) (bind_value (C01_vec_transpose _) (bind_value (C01_outer _ _)
          (bind_value (scaled_dense _ _) ?_))))))
        rw [C01_mat_add, outer_vecMulVec, Matrix.smul_mulVec, Matrix.smul_vecMulVec]
        refine congrArg (fun c : ℝ => some (dense (S + c • tau • vecMulVec (Gᵀ *ᵥ ![ax, ay]) (sf.N (ic.points g))))) ?_
        simp only [List.prod_cons, List.prod_nil]
        ring
  · refine congrArg (· >>= _) (foldlM_fails (List.mem_finRange ⟨0, hN⟩) (fun s => ?_) _)
    simp only []
    rw [mul_mismatch _ _ he.symm]
    rfl

/-- **C140**: for the velocity zero the three stabilised routines divide by zero: `a.Norm()` is zero, and
without nodes `sum` is. -/
theorem C140_still (hN : 0 < ic.N) (k : ℝ) :
    advectionSUPGS sf ic element doulist x 0 0 k = none ∧
    shockCapturingS sf ic element doulist x 0 0 k = none ∧
    massSUPGS sf ic element doulist x 0 0 k = none := by
  have h0 : ∀ dN : Matrix (Fin 2) (Fin n) ℝ, advScale dN ![0, 0] k = none := by
    intro dN
    have hz : Real.sqrt (![(0 : ℝ), 0] ⬝ᵥ ![0, 0]) = 0 := by simp
    unfold advScale
    simp only [hz]
    cases hs : allSome fun i => div? |(dNᵀ *ᵥ ![(0 : ℝ), 0]) i| (0 : ℝ) with
    | none => rfl
    | some v =>
      have hv : ∑ i, v i = 0 := Finset.sum_eq_zero fun i _ => by
        have := allSome_eq_some.1 hs i
        simp [div?] at this
      simp only [Option.bind_eq_bind, Option.bind_some, hv]
      simp [div?]
  have h1 : ∀ dN : Matrix (Fin 2) (Fin n) ℝ, advTau dN ![0, 0] k = none := fun dN => by
    unfold advTau; rw [h0]; rfl
  have h2 : ∀ dN : Matrix (Fin 2) (Fin n) ℝ, shockTau dN ![0, 0] k = none := fun dN => by
    unfold shockTau; rw [h0]; rfl
  have hl : ∀ (X : Matrix (Fin n) (Fin 2) ℝ) (f : (Fin 2 → ℝ) → Matrix (Fin 2) (Fin n) ℝ →
      Option (Matrix (Fin n) (Fin n) ℝ)), (∀ r dN, f r dN = none) → loop2 sf ic X f = none := by
    intro X f hf
    refine foldlM_fails (List.mem_finRange ⟨0, hN⟩) (fun s => ?_) _
    cases hg : grad? sf X (ic.points ⟨0, hN⟩) with
    | none => simp [hg]
    | some G => simp [hg, hf]
  have he : ∀ core : Matrix (Fin n) (Fin 2) ℝ → Option (Matrix (Fin n) (Fin n) ℝ), (∀ X, core X = none) →
      elemM 1 (scalarCore core) element doulist x = none := by
    intro core hc
    unfold elemM scalarCore
    cases interleaved 1 element.length doulist with
    | none => rfl
    | some _ =>
      cases gather x element n 2 with
      | none => rfl
      | some X => simp [hc]
  refine ⟨?_, ?_, ?_⟩
  · rw [C140_supg _ _ _ _ _ hN]
    exact he _ fun X => hl _ _ fun r dN => by rw [h1]; rfl
  · rw [C140_shock _ _ _ _ _ hN]
    exact he _ fun X => hl _ _ fun r dN => by rw [h2]; rfl
  · rw [C140_massSUPG _ _ _ _ _ hN]
    exact he _ fun X => hl _ _ fun r dN => by rw [h1]; rfl

end Stabilised

/-- **C140**: the stored matrices of diffusion and of the consistent mass are symmetric entry by entry. -/
theorem C140_symmetric [DecidableEq K] {sf : SF K 2 n} {ic : IC K 2} (hN : 0 < ic.N) {element doulist : List ℕ}
    {x : List (Vec K)} {D : K} {Ke : Mat K} {nte : List (List (ℕ × ℕ))}
    (h : rdStiffnessS sf ic element doulist x D = some (Ke, nte) ∨
      rdConsistentMassS sf ic element doulist x = some (Ke, nte)) (i j : ℤ) :
    Ke.at? i j = Ke.at? j i := by
  have hs : ∀ {core : Matrix (Fin n) (Fin 2) K → Option (Matrix (Fin n) (Fin n) K)},
      (∀ X A, core X = some A → Aᵀ = A) → ∀ X A, scalarCore core X = some A → Aᵀ = A := by
    intro core hc X A hA
    unfold scalarCore at hA
    obtain ⟨B, hB, rfl⟩ := Option.map_eq_some_iff.1 hA
    rw [Matrix.transpose_submatrix, hc X B hB]
  rcases h with h | h
  · rw [C140_diffusion _ _ _ _ _ hN] at h
    exact C32_returned (hs fun _ _ => C32_diffusion) h i j
  · rw [C140_consistentMass _ _ _ _ _ hN] at h
    exact C32_returned (hs fun _ _ => C32_rdConsistentMass) h i j

/-! ### Cases -/

example (x : List (Vec ℝ)) (D : ℝ) :
    rdStiffnessS SF.square4 IC.gauss4Square [4, 5, 9, 8] [0] x D =
      elemM 1 (scalarCore fun X => rdStiffness SF.square4 IC.gauss4Square X D) [4, 5, 9, 8] [0] x :=
  C140_diffusion _ _ _ _ _ (by norm_num [IC.gauss4Square]) D

/-- The reaction `u - u^3` of a bistable medium. -/
example (x u : List (Vec ℝ)) :
    rdReactionS SF.square4 IC.gauss4Square [4, 5, 9, 8] [0] x u (fun c _ => c - c ^ 3) = (do
      let U ← gather u [4, 5, 9, 8] 4 1
      elemV 1 (fun X => (rdReaction SF.square4 IC.gauss4Square X (fun i => U i 0) (fun c _ => c - c ^ 3)).map
        fun v => fun p => v p.1) [4, 5, 9, 8] [0] x) :=
  C140_reaction _ _ _ _ _ (by norm_num [IC.gauss4Square]) u fun _ _ => rfl

example (x : List (Vec ℝ)) (k : ℝ) :
    advectionSUPGS SF.triangle3 IC.gauss1Triangle [0, 1, 2] [0] x 0 0 k = none :=
  (C140_still _ _ _ _ _ (by norm_num [IC.gauss1Triangle]) k).1

/-- A 2 × 2 matrix `D`. -/
example (x : List (Vec ℝ)) (t : ℝ) :
    planeStiffnessBbarS SF.square4 IC.gauss4Square IC.gauss4Square [4, 5, 9, 8] [0, 1] x
      (dense (1 : Matrix (Fin 2) (Fin 2) ℝ)) t = none :=
  (C140_wrong_size _ IC.gauss4Square _ _ _ _ _ (by norm_num [IC.gauss4Square]) (by norm_num [IC.gauss4Square]) 1
    (by norm_num) t).1

example (x : List (Vec ℝ)) (chi : Fin 3 → List (Vec ℝ)) (E V t : ℝ) :
    (do return (← homogenizeConstitutiveS SF.square4 IC.gauss4Square [4, 5, 9, 8] x (chi 0) (chi 1) (chi 2) E V t,
      ← homogenizeCheckS SF.square4 IC.gauss4Square [4, 5, 9, 8] x (chi 0) (chi 1) (chi 2) t)) =
    (cellValues SF.square4 IC.gauss4Square x chi E V t [4, 5, 9, 8]).map fun p => (dense p.1, dense p.2) :=
  C140_homogenizeValues _ _ _ _ (by norm_num [IC.gauss4Square]) chi E V t

end Pansfem
