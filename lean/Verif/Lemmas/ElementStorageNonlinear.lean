/-
The matrices of the geometrically nonlinear storage-level routines.
-/
import Verif.Model.ElementStorageNonlinear
import Verif.Lemmas.ElementStorageFluid

noncomputable section

namespace Pansfem

open Matrix

variable {K : Type} [Field K] {n : ℕ}

/-- All the positions of a node. -/
def nodeTargets (R k : ℕ) (i : Fin n) : List (Fin R × (Fin n × Fin k)) :=
  (List.finRange R).flatMap fun r => (List.finRange k).map fun b => (r, (i, b))

/-- A loop over the nodes that assigns every row of their columns. -/
theorem nodeFillS_eq {R k : ℕ} (f : Matrix (Fin R) (Fin n × Fin k) K) (a : ℕ → Option (List (ℕ × ℕ × K)))
    (h : ∀ i : Fin n, a i = some ((nodeTargets R k i).map fun p =>
      ((p.1 : ℕ), k * (p.2.1 : ℕ) + (p.2.2 : ℕ), f p.1 p.2))) :
    nodeFillS R k n a = some (dense (f.submatrix id finProdFinEquiv.symm)) := by
  unfold nodeFillS
  rw [loop_flat (n := n) putsS (fun _ => rfl) putsS_append (fun i : Fin n => (nodeTargets R k i).map fun p =>
    ((p.1 : ℕ), k * (p.2.1 : ℕ) + (p.2.2 : ℕ), f p.1 p.2)) _ (fun s i => by rw [h i]; rfl), ← List.map_flatMap,
    Nat.mul_comm k n]
  have := puts_target (Equiv.refl (Fin R)) (finProdFinEquiv (m := n) (n := k)) f
    ((List.finRange n).flatMap fun i => nodeTargets R k i) (fun r c _ => by
      refine List.mem_flatMap.2 ⟨c.1, List.mem_finRange _, List.mem_flatMap.2 ⟨r, List.mem_finRange _,
        List.mem_map.2 ⟨c.2, List.mem_finRange _, rfl⟩⟩⟩)
  refine Eq.trans (congrArg _ (List.map_congr_left fun p _ => ?_)) this
  refine Prod.ext rfl (Prod.ext ?_ rfl)
  show k * (p.2.1 : ℕ) + (p.2.2 : ℕ) = (p.2.2 : ℕ) + k * (p.2.1 : ℕ)
  omega

theorem planeBLS_eq (F : Matrix (Fin 2) (Fin 2) K) (G : Matrix (Fin 2) (Fin n) K) :
    planeBLS n (dense F) (dense G) = some (dense ((planeBL F G).submatrix id finProdFinEquiv.symm)) := by
  refine nodeFillS_eq (planeBL F G) _ fun i => ?_
  exact bind_value (C01_mat_read F 0 0) (bind_value (C01_mat_read F 0 1) (bind_value (C01_mat_read F 1 0)
    (bind_value (C01_mat_read F 1 1) (bind_value (C01_mat_read G 0 i) (bind_value (C01_mat_read G 1 i) rfl)))))

theorem solidBLS_eq (F : Matrix (Fin 3) (Fin 3) K) (G : Matrix (Fin 3) (Fin n) K) :
    solidBLS n (dense F) (dense G) = some (dense ((solidBL F G).submatrix id finProdFinEquiv.symm)) := by
  refine nodeFillS_eq (solidBL F G) _ fun i => ?_
  exact bind_value (C01_mat_read F 0 0) (bind_value (C01_mat_read F 0 1) (bind_value (C01_mat_read F 0 2)
    (bind_value (C01_mat_read F 1 0) (bind_value (C01_mat_read F 1 1) (bind_value (C01_mat_read F 1 2)
    (bind_value (C01_mat_read F 2 0) (bind_value (C01_mat_read F 2 1) (bind_value (C01_mat_read F 2 2)
    (bind_value (C01_mat_read G 0 i) (bind_value (C01_mat_read G 1 i) (bind_value (C01_mat_read G 2 i)
    rfl)))))))))))

theorem solidBUS_eq (G : Matrix (Fin 3) (Fin n) K) :
    solidBUS n (dense G) = some (dense ((solidBU G).submatrix id finProdFinEquiv.symm)) := by
  refine nodeFillS_eq (solidBU G) _ fun i => ?_
  exact bind_value (C01_mat_read G 0 i) (bind_value (C01_mat_read G 1 i) (bind_value (C01_mat_read G 2 i) rfl))

theorem planeBNLS_eq (G : Matrix (Fin 2) (Fin n) K) :
    planeBNLS n (dense G) = some (dense ((geoB G).submatrix (finProdFinEquiv (m := 2) (n := 2)).symm
      finProdFinEquiv.symm)) := by
  have h : (geoB G).submatrix (finProdFinEquiv (m := 2) (n := 2)).symm id = Matrix.of fun (r : Fin 4) c =>
      ![![G 0 c.1, 0], ![0, G 0 c.1], ![G 1 c.1, 0], ![0, G 1 c.1]] r c.2 := by
    ext r ⟨i, b⟩
    fin_cases r <;> fin_cases b <;> rfl
  refine Eq.trans ?_ (congrArg (fun A : Matrix (Fin 4) (Fin n × Fin 2) K =>
    some (dense (A.submatrix id finProdFinEquiv.symm))) h.symm)
  refine nodeFillS_eq (R := 4) _ _ fun i => ?_
  exact bind_value (C01_mat_read G 0 i) (bind_value (C01_mat_read G 1 i) rfl)

theorem solidBNLS_eq (G : Matrix (Fin 3) (Fin n) K) :
    solidBNLS n (dense G) = some (dense ((geoB G).submatrix (finProdFinEquiv (m := 3) (n := 3)).symm
      finProdFinEquiv.symm)) := by
  have h : (geoB G).submatrix (finProdFinEquiv (m := 3) (n := 3)).symm id = Matrix.of fun (r : Fin 9) c =>
      ![![G 0 c.1, 0, 0], ![0, G 0 c.1, 0], ![0, 0, G 0 c.1], ![G 1 c.1, 0, 0], ![0, G 1 c.1, 0], ![0, 0, G 1 c.1],
        ![G 2 c.1, 0, 0], ![0, G 2 c.1, 0], ![0, 0, G 2 c.1]] r c.2 := by
    ext r ⟨i, b⟩
    fin_cases r <;> fin_cases b <;> rfl
  refine Eq.trans ?_ (congrArg (fun A : Matrix (Fin 9) (Fin n × Fin 3) K =>
    some (dense (A.submatrix id finProdFinEquiv.symm))) h.symm)
  refine nodeFillS_eq (R := 9) _ _ fun i => ?_
  exact bind_value (C01_mat_read G 0 i) (bind_value (C01_mat_read G 1 i) (bind_value (C01_mat_read G 2 i) rfl))

/-! ### Stress -/

theorem block_eq (d : ℕ) (a : K) {T : Type} (k : Mat K → Option T) :
    (Mat.identity d >>= fun I => Mat.smul I a >>= k) = k (dense (a • (1 : Matrix (Fin d) (Fin d) K))) :=
  bind_value (C01_identity d) (bind_value (C01_mat_smul _ a) rfl)

theorem stackS2_eq (S : Matrix (Fin 2) (Fin 2) K) :
    stackS2 (S 0 0) (S 0 1) (S 1 0) (S 1 1) = some (dense ((geoS S).submatrix
      (finProdFinEquiv (m := 2) (n := 2)).symm (finProdFinEquiv (m := 2) (n := 2)).symm)) := by
  refine (block_eq 2 _ _).trans ((block_eq 2 _ _).trans ((block_eq 2 _ _).trans ((block_eq 2 _ _).trans ?_)))
  refine bind_value (C01_mat_hstack _ _) (bind_value (C01_mat_hstack _ _) ((C01_mat_vstack _ _).trans ?_))
  refine congrArg (fun A => some (dense (r := 4) (c := 4) A)) ?_
  ext i j
  fin_cases i <;> fin_cases j <;> rfl

theorem stackS3_eq (S : Matrix (Fin 3) (Fin 3) K) :
    stackS3 (S 0 0) (S 0 1) (S 0 2) (S 1 0) (S 1 1) (S 1 2) (S 2 0) (S 2 1) (S 2 2) =
      some (dense ((geoS S).submatrix
        (finProdFinEquiv (m := 3) (n := 3)).symm (finProdFinEquiv (m := 3) (n := 3)).symm)) := by
  refine (block_eq 3 _ _).trans ((block_eq 3 _ _).trans ((block_eq 3 _ _).trans ((block_eq 3 _ _).trans
    ((block_eq 3 _ _).trans ((block_eq 3 _ _).trans ((block_eq 3 _ _).trans ((block_eq 3 _ _).trans
    ((block_eq 3 _ _).trans ?_))))))))
  refine bind_value (C01_mat_hstack _ _) (bind_value (C01_mat_hstack _ _) (bind_value (C01_mat_hstack _ _)
    (bind_value (C01_mat_hstack _ _) (bind_value (C01_mat_hstack _ _) (bind_value (C01_mat_hstack _ _)
    (bind_value (C01_mat_vstack _ _) ((C01_mat_vstack _ _).trans ?_)))))))
  refine congrArg (fun A => some (dense (r := 9) (c := 9) A)) ?_
  ext i j
  fin_cases i <;> fin_cases j <;> rfl

/-! ### The accumulations -/

/-- A pair in storage. -/
def storeKF {k : ℕ} (s : Matrix (Fin n × Fin k) (Fin n × Fin k) K × (Fin n × Fin k → K)) : Mat K × Vec K :=
  (flatM s.1, flatV s.2)

theorem geo_flat {R ι : Type} [Fintype R] [Fintype ι] {k : ℕ} (e : ι ≃ R) (B : Matrix R (Fin n × Fin k) K)
    (S : Matrix R R K) (c : K) :
    c • ((B.submatrix e finProdFinEquiv.symm)ᵀ * S.submatrix e e * B.submatrix e finProdFinEquiv.symm) =
      (c • (Bᵀ * S * B)).submatrix (finProdFinEquiv (m := n) (n := k)).symm finProdFinEquiv.symm := by
  rw [Matrix.transpose_submatrix, Matrix.submatrix_mul_equiv, Matrix.submatrix_mul_equiv]
  rfl

theorem flatV_sub {k : ℕ} (f g : Fin n × Fin k → K) :
    (flatV f).sub (densev (g ∘ finProdFinEquiv.symm)) = some (flatV (f - g)) := by
  rw [flatV_densev, C01_vec_sub, flatV_densev]
  rfl

theorem nlAddS_eq {R k d : ℕ} (B : Matrix (Fin R) (Fin n × Fin k) K) (C : Matrix (Fin R) (Fin R) K) (v : Fin R → K)
    (G : Matrix (Fin d × Fin d) (Fin n × Fin k) K) (S : Matrix (Fin d × Fin d) (Fin d × Fin d) K) (w : List K)
    (s : Matrix (Fin n × Fin k) (Fin n × Fin k) K × (Fin n × Fin k → K)) :
    nlAddS (dense (B.submatrix id finProdFinEquiv.symm)) (dense C) (densev v)
      (dense (G.submatrix finProdFinEquiv.symm finProdFinEquiv.symm))
      (dense (S.submatrix finProdFinEquiv.symm finProdFinEquiv.symm)) w (storeKF s) =
      some (storeKF (s + w.prod • (Bᵀ * C * B + Gᵀ * S * G, -(Bᵀ *ᵥ v)))) := by
  unfold nlAddS
  refine bind_value (C01_mat_transpose _) (bind_value (C01_mat_mul _ _) (bind_value (C01_mat_mul _ _)
    (bind_value (scaled_dense _ _) ?_)))
  rw [congr_flat]
  refine bind_value (flatM_add _ _) (bind_value (C01_mat_transpose _) (bind_value (C01_mat_mul _ _)
    (bind_value (C01_mat_mul _ _) (bind_value (scaled_dense _ _) ?_))))
  rw [geo_flat]
  refine bind_value (flatM_add _ _) (bind_value (C01_mat_transpose _) (bind_value (C01_mat_vec _ _)
    (bind_value (scaledV_dense _ _) ?_)))
  refine bind_value ((congrArg _ (congr_flatV _ _ _)).trans (flatV_sub _ _)) ?_
  have h : s + w.prod • (Bᵀ * C * B + Gᵀ * S * G, -(Bᵀ *ᵥ v)) =
      (s.1 + w.prod • (Bᵀ * C * B) + w.prod • (Gᵀ * S * G), s.2 - w.prod • (Bᵀ *ᵥ v)) := by
    refine Prod.ext ?_ ?_
    · show s.1 + w.prod • (_ + _) = _
      rw [smul_add, add_assoc]
    · show s.2 + w.prod • (-_) = _
      rw [smul_neg, sub_eq_add_neg]
  rw [h]
  rfl

/-! ### Strain and stress -/

theorem strainS_eq [DecidableEq K] (h2 : (2 : K) ≠ 0) {d : ℕ} (G : Matrix (Fin d) (Fin n) K)
    (U : Matrix (Fin n) (Fin d) K) :
    strainS d (dense G) (dense U) = some (dense (1 + dispGrad G U), dense (green (dispGrad G U))) := by
  refine bind_value (C01_mat_mul _ _) (bind_value (C01_mat_transpose _) (bind_value (C01_identity d)
    (bind_value (C01_mat_add _ _) (bind_value (C01_mat_transpose _) (bind_value (C01_mat_add _ _)
    (bind_value (C01_mat_transpose _) (bind_value (C01_mat_mul _ _) (bind_value (C01_mat_add _ _)
    (bind_value (C01_mat_sdiv _ _ h2) ?_)))))))))
  unfold green
  rw [one_div]
  rfl

theorem deformationS_eq {m : ℕ} (sf : SF ℝ (m + 1) n) (X x : Matrix (Fin n) (Fin (m + 1)) ℝ)
    (r : Fin (m + 1) → ℝ) :
    deformationS (dense (sf.dNdr r)) (dense X) (dense x) =
      (deformation sf X x r).map fun F => (dense F, F.det) := by
  unfold deformationS deformation inv? jac
  refine bind_value (C01_mat_mul _ _) ?_
  have hi := C03_inverse (sf.dNdr r * X)
  by_cases h : (sf.dNdr r * X).det = 0
  · rw [if_pos h] at hi ⊢
    rw [hi]; rfl
  · rw [if_neg h] at hi ⊢
    refine bind_value hi (bind_value (C01_mat_mul _ _) (bind_value (C01_mat_mul _ _)
      (bind_value (C01_mat_transpose _) (bind_value (C02_determinant _) ?_))))
    simp only [Option.bind_eq_bind, Option.bind_some]
    split_ifs <;> rfl

theorem cauchyS_eq {d : ℕ} (mu0 lambda0 : ℝ) (F : Matrix (Fin d) (Fin d) ℝ) :
    cauchyS d mu0 lambda0 (dense F) F.det = some (dense (cauchy mu0 lambda0 F)) := by
  exact bind_value (C01_mat_transpose _) (bind_value (C01_mat_mul _ _) (bind_value (C01_identity d)
    (bind_value (C01_mat_sub _ _) (bind_value (C01_mat_smul _ _) (bind_value (C01_identity d)
    (bind_value (C01_mat_smul _ _) (C01_mat_add _ _)))))))

theorem spatialC2S_eq (l mu : ℝ) : spatialC2S l mu = some (dense (spatialC2 l mu)) := by
  unfold spatialC2S
  rw [C01_mat_zeros]
  exact assigns_all (spatialC2 l mu) 0

theorem spatialC3S_eq (l mu : ℝ) : spatialC3S l mu = some (dense (spatialC3 l mu)) := by
  unfold spatialC3S
  rw [C01_mat_zeros]
  exact assigns_all (spatialC3 l mu) 0

/-! ### The points -/

theorem planeTLBodyS_eq [DecidableEq K] (h2 : (2 : K) ≠ 0) (D : Matrix (Fin 3) (Fin 3) K) (U : Matrix (Fin n) (Fin 2) K)
    (G : Matrix (Fin 2) (Fin n) K) (w : List K)
    (s : Matrix (Fin n × Fin 2) (Fin n × Fin 2) K × (Fin n × Fin 2 → K)) :
    planeTLBodyS n (dense D) (dense U) (dense G) w (storeKF s) =
      some (storeKF (s + w.prod • ((planeBL (1 + dispGrad G U) G)ᵀ * D * planeBL (1 + dispGrad G U) G +
        (geoB G)ᵀ * geoS (stress2 (D *ᵥ voigt2 (green (dispGrad G U)))) * geoB G,
        -((planeBL (1 + dispGrad G U) G)ᵀ *ᵥ (D *ᵥ voigt2 (green (dispGrad G U))))))) := by
  unfold planeTLBodyS
  refine bind_value (strainS_eq h2 G U) (bind_value (planeBLS_eq _ _) ?_)
  generalize green (dispGrad G U) = E
  refine bind_value (C01_mat_read E 0 0) (bind_value (C01_mat_read E 0 1) (bind_value (C01_mat_read E 1 0)
    (bind_value (C01_mat_read E 1 1) (bind_value (C01_mat_vec D (voigt2 E)) ?_))))
  generalize D *ᵥ voigt2 E = Sv
  refine bind_value (planeBNLS_eq G) (bind_value (C01_vec_read Sv 0) (bind_value (C01_vec_read Sv 1)
    (bind_value (C01_vec_read Sv 2) (bind_value (stackS2_eq (stress2 Sv)) ?_))))
  exact nlAddS_eq _ _ _ _ _ _ _

theorem solidTLBodyS_eq [DecidableEq K] (h2 : (2 : K) ≠ 0) (C : Matrix (Fin 6) (Fin 6) K) (U : Matrix (Fin n) (Fin 3) K)
    (G : Matrix (Fin 3) (Fin n) K) (w : List K)
    (s : Matrix (Fin n × Fin 3) (Fin n × Fin 3) K × (Fin n × Fin 3 → K)) :
    solidTLBodyS n (dense C) (dense U) (dense G) w (storeKF s) =
      some (storeKF (s + w.prod • ((solidBL (1 + dispGrad G U) G)ᵀ * C * solidBL (1 + dispGrad G U) G +
        (geoB G)ᵀ * geoS (stress3 (C *ᵥ voigt3 (green (dispGrad G U)))) * geoB G,
        -((solidBL (1 + dispGrad G U) G)ᵀ *ᵥ (C *ᵥ voigt3 (green (dispGrad G U))))))) := by
  unfold solidTLBodyS
  refine bind_value (strainS_eq h2 G U) (bind_value (solidBLS_eq _ _) ?_)
  generalize green (dispGrad G U) = E
  refine bind_value (C01_mat_read E 0 0) (bind_value (C01_mat_read E 1 1) (bind_value (C01_mat_read E 2 2)
    (bind_value (C01_mat_read E 0 1) (bind_value (C01_mat_read E 1 0) (bind_value (C01_mat_read E 1 2)
    (bind_value (C01_mat_read E 2 1) (bind_value (C01_mat_read E 2 0) (bind_value (C01_mat_read E 0 2)
    (bind_value (C01_mat_vec C (voigt3 E)) ?_)))))))))
  generalize C *ᵥ voigt3 E = Sv
  refine bind_value (solidBNLS_eq G) (bind_value (C01_vec_read Sv 0) (bind_value (C01_vec_read Sv 1)
    (bind_value (C01_vec_read Sv 2) (bind_value (C01_vec_read Sv 3) (bind_value (C01_vec_read Sv 4)
    (bind_value (C01_vec_read Sv 5) (bind_value (stackS3_eq (stress3 Sv)) ?_)))))))
  exact nlAddS_eq _ _ _ _ _ _ _

theorem planeULBodyS_eq (sf : SF ℝ 2 n) (X x : Matrix (Fin n) (Fin 2) ℝ) (r : Fin 2 → ℝ) (mu0 lambda0 : ℝ)
    (G : Matrix (Fin 2) (Fin n) ℝ) (w : List ℝ)
    (s : Matrix (Fin n × Fin 2) (Fin n × Fin 2) ℝ × (Fin n × Fin 2 → ℝ)) :
    planeULBodyS n mu0 lambda0 (dense (sf.dNdr r)) (dense X) (dense x) (dense G) w (storeKF s) =
      (deformation sf X x r).map fun F => storeKF (s + w.prod • ((planeB G)ᵀ *
        spatialC2 (spatialLambda lambda0 F) (spatialMu mu0 lambda0 F) * planeB G +
        (geoB G)ᵀ * geoS (cauchy mu0 lambda0 F) * geoB G,
        -((planeB G)ᵀ *ᵥ ![cauchy mu0 lambda0 F 0 0, cauchy mu0 lambda0 F 1 1, cauchy mu0 lambda0 F 0 1]))) := by
  unfold planeULBodyS
  rw [deformationS_eq]
  cases deformation sf X x r with
  | none => rfl
  | some F =>
    refine bind_value rfl (bind_value (spatialC2S_eq _ _) (bind_value (planeBS_eq G)
      (bind_value (cauchyS_eq mu0 lambda0 F) ?_)))
    simp only [Option.map_some]
    generalize cauchy mu0 lambda0 F = S
    refine bind_value (planeBNLS_eq G) (bind_value (C01_mat_read S 0 0) (bind_value (C01_mat_read S 0 1)
      (bind_value (C01_mat_read S 1 0) (bind_value (C01_mat_read S 1 1) (bind_value (stackS2_eq S) ?_)))))
    exact nlAddS_eq _ _ ![S 0 0, S 1 1, S 0 1] _ _ _ _

theorem solidULBodyS_eq (sf : SF ℝ 3 n) (X x : Matrix (Fin n) (Fin 3) ℝ) (r : Fin 3 → ℝ) (mu0 lambda0 : ℝ)
    (G : Matrix (Fin 3) (Fin n) ℝ) (w : List ℝ)
    (s : Matrix (Fin n × Fin 3) (Fin n × Fin 3) ℝ × (Fin n × Fin 3 → ℝ)) :
    solidULBodyS n mu0 lambda0 (dense (sf.dNdr r)) (dense X) (dense x) (dense G) w (storeKF s) =
      (deformation sf X x r).map fun F => storeKF (s + w.prod • ((solidBU G)ᵀ *
        spatialC3 (spatialLambda lambda0 F) (spatialMu mu0 lambda0 F) * solidBU G +
        (geoB G)ᵀ * geoS (cauchy mu0 lambda0 F) * geoB G,
        -((solidBU G)ᵀ *ᵥ ![cauchy mu0 lambda0 F 0 0, cauchy mu0 lambda0 F 1 1, cauchy mu0 lambda0 F 2 2,
          cauchy mu0 lambda0 F 0 1, cauchy mu0 lambda0 F 0 2, cauchy mu0 lambda0 F 1 2]))) := by
  unfold solidULBodyS
  rw [deformationS_eq]
  cases deformation sf X x r with
  | none => rfl
  | some F =>
    refine bind_value rfl (bind_value (spatialC3S_eq _ _) (bind_value (solidBUS_eq G)
      (bind_value (cauchyS_eq mu0 lambda0 F) ?_)))
    simp only [Option.map_some]
    generalize cauchy mu0 lambda0 F = S
    refine bind_value (solidBNLS_eq G) (bind_value (C01_mat_read S 0 0) (bind_value (C01_mat_read S 0 1)
      (bind_value (C01_mat_read S 0 2) (bind_value (C01_mat_read S 1 0) (bind_value (C01_mat_read S 1 1)
      (bind_value (C01_mat_read S 1 2) (bind_value (C01_mat_read S 2 0) (bind_value (C01_mat_read S 2 1)
      (bind_value (C01_mat_read S 2 2) (bind_value (stackS3_eq S) ?_))))))))))
    exact nlAddS_eq _ _ ![S 0 0, S 1 1, S 2 2, S 0 1, S 0 2, S 1 2] _ _ _ _

/-! ### Pressure -/

theorem flatM_sub {k : ℕ} (A B : Matrix (Fin n × Fin k) (Fin n × Fin k) K) :
    (flatM A).sub (dense (B.submatrix finProdFinEquiv.symm finProdFinEquiv.symm)) = some (flatM (A - B)) := by
  rw [flatM_dense, C01_mat_sub, flatM_dense]
  rfl

/-- Component `b` of node `i`. -/
def compE (n k : ℕ) : Fin n × Fin k ≃ Fin (k * n) := finProdFinEquiv.trans (finCongr (Nat.mul_comm n k))

omit [Field K] in
theorem flatM_laid {k : ℕ} (A : Matrix (Fin n × Fin k) (Fin n × Fin k) K) :
    dense (A.submatrix (compE n k).symm (compE n k).symm) =
      dense (A.submatrix finProdFinEquiv.symm finProdFinEquiv.symm) := by
  have h : ∀ {r s : ℕ} (h : r = s) (B : Matrix (Fin r) (Fin r) K),
      dense (B.submatrix (Fin.cast h.symm) (Fin.cast h.symm)) = dense B := by
    intro r s h B; subst h; rfl
  exact h (Nat.mul_comm n k) (A.submatrix finProdFinEquiv.symm finProdFinEquiv.symm)

omit [Field K] in
theorem flatV_laid {k : ℕ} (v : Fin n × Fin k → K) :
    densev (v ∘ (compE n k).symm) = densev (v ∘ finProdFinEquiv.symm) := by
  have h : ∀ {r s : ℕ} (h : r = s) (w : Fin r → K), densev (w ∘ Fin.cast h.symm) = densev w := by
    intro r s h B; subst h; rfl
  exact h (Nat.mul_comm n k) (v ∘ finProdFinEquiv.symm)

theorem compE_val {k : ℕ} (i : Fin n) (b : Fin k) : ((compE n k (i, b)) : ℕ) = k * i + b := by
  show (b : ℕ) + k * i = _
  omega

theorem pressureKS_eq (N : Fin n → K) (dN : Matrix (Fin 1) (Fin n) K) :
    pressureKS n (densev N) (dense dN) =
      some (dense ((pressureM N dN).submatrix finProdFinEquiv.symm finProdFinEquiv.symm)) := by
  rw [← flatM_laid]
  refine fillS_eq (compE n 2) (compE n 2) (pressureM N dN)
    (fun i j => [((i, 0), (j, 0)), ((i, 0), (j, 1)), ((i, 1), (j, 0)), ((i, 1), (j, 1))]) (fun _ j => j.elim0)
    (fun i j => ?_) (fun _ j => j.elim0) fun s t _ => .inl ⟨s.1, t.1, ?_⟩
  · refine bind_value (C01_vec_read N i) (bind_value (C01_vec_read N j) (bind_value (C01_mat_read dN 0 i)
      (bind_value (C01_mat_read dN 0 j) ?_)))
    simp only [List.map_cons, List.map_nil, compE_val]
    rfl
  · obtain ⟨i, a⟩ := s
    obtain ⟨j, b⟩ := t
    fin_cases a <;> fin_cases b <;> simp

theorem pressureFS_eq (N : Fin n → K) (dx : Matrix (Fin 1) (Fin 2) K) :
    pressureFS n (densev N) (dense dx) = some (densev ((pressureV N dx) ∘ finProdFinEquiv.symm)) := by
  rw [← flatV_laid]
  refine fillVS_eq (compE n 2) (pressureV N dx) (fun i => [(i, 0), (i, 1)]) (fun j => j.elim0)
    (fun i => ?_) (fun j => j.elim0) fun s _ => .inl ⟨s.1, ?_⟩
  · refine bind_value (C01_vec_read N i) (bind_value (C01_mat_read dx 0 0) (bind_value (C01_mat_read dx 0 1) ?_))
    simp only [List.map_cons, List.map_nil, compE_val]
    rfl
  · obtain ⟨i, a⟩ := s
    fin_cases a <;> simp

end Pansfem
