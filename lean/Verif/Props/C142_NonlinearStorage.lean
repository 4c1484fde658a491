/-
C142: the geometrically nonlinear routines on `Matrix` and `Vector` objects compute what the routines of
`Verif/Model/Nonlinear.lean` compute.
-/
import Verif.Lemmas.ElementStorageNonlinear
import Verif.Model.ProgramNewton
import Verif.Props.C38_TotalLagrange

noncomputable section

namespace Pansfem

open Matrix

variable {K : Type} [Field K] {n : ℕ}

/-- What a routine with displacements leaves in `_Ke`, `_Fe` and `_nodetoelement`. -/
def elemKF {d k : ℕ} (core : Matrix (Fin n) (Fin d) K → Matrix (Fin n) (Fin k) K →
      Option (Matrix (Fin n × Fin k) (Fin n × Fin k) K × (Fin n × Fin k → K)))
    (element doulist : List ℕ) (x u : List (Vec K)) : Option ((Mat K × Vec K) × List (List (ℕ × ℕ))) := do
  let nte ← interleaved k element.length doulist
  let X ← gather x element n d
  let U ← gather u element n k
  let s ← core X U
  return ((flatM s.1, flatV s.2), nte)

omit [Field K] in
theorem elemKF_head {d k : ℕ} (core : Matrix (Fin n) (Fin d) K → Matrix (Fin n) (Fin k) K →
      Option (Matrix (Fin n × Fin k) (Fin n × Fin k) K × (Fin n × Fin k → K)))
    (element doulist : List ℕ) (x u : List (Vec K)) :
    (interleaved k element.length doulist >>= fun nte => gather x element n d >>= fun X =>
      (gather u element n k >>= fun U => core X U) >>= fun s => pure (storeKF s, nte)) =
      elemKF core element doulist x u := by
  unfold elemKF
  simp only [bind_assoc]
  rfl

/-- **C142**: `PlaneStrainStiffnessTotalLagrange`. -/
theorem C142_planeTL [DecidableEq K] (h2 : (2 : K) ≠ 0) (sf : SF K 2 n) (ic : IC K 2) (element doulist : List ℕ)
    (x u : List (Vec K)) (hN : 0 < ic.N) (E V t : K) :
    planeTLS sf ic element doulist x u E V t =
      elemKF (fun X U => planeTL sf ic X U E V t) element doulist x u := by
  refine Eq.trans ?_ (elemKF_head _ element doulist x u)
  refine head_eq (fun X => gather u element n 2 >>= fun U => planeTL sf ic X U E V t) storeKF
    (fun X nte => coordsS u element 2 >>= fun U => planeStrainDS E V >>= fun D => _ >>= fun s => pure (s, nte))
    (fun he X nte => ?_) fun he X nte => ?_
  · subst he
    refine bind_sim (coordsS_eq u element 2) fun U => bind_sim (planeStrainDS_eq E V) fun D => ?_
    rw [zeros_flatM, zeros_flatV]
    refine loop_tail (loopS_eq storeKF _ _ (fun S g => ?_) 0)
    refine (gradS_bind sf X (ic.points g) _).trans ?_
    cases grad? sf X (ic.points g) with
    | none => rfl
    | some G =>
      refine (planeTLBodyS_eq h2 D U G _ S).trans ?_
      refine congrArg (fun c : K => some (storeKF (S + c • _))) ?_
      simp only [List.prod_cons, List.prod_nil]
      ring
  · rw [coordsS_eq, planeStrainDS_eq]
    cases gather u element element.length 2 with
    | none => rfl
    | some U =>
    cases planeStrainD E V with
    | none => rfl
    | some D =>
      refine congrArg (· >>= _) (foldlM_fails (List.mem_finRange ⟨0, hN⟩) (fun s => ?_) _)
      simp only []
      rw [mul_mismatch _ _ he.symm]
      rfl

/-- **C142**: `SolidTotalLagrange`. -/
theorem C142_solidTL [DecidableEq K] (h2 : (2 : K) ≠ 0) (sf : SF K 3 n) (ic : IC K 3) (element doulist : List ℕ)
    (x u : List (Vec K)) (hN : 0 < ic.N) (E V : K) :
    solidTLS sf ic element doulist x u E V =
      elemKF (fun X U => solidTL sf ic X U E V) element doulist x u := by
  refine Eq.trans ?_ (elemKF_head _ element doulist x u)
  refine head_eq (fun X => gather u element n 3 >>= fun U => solidTL sf ic X U E V) storeKF
    (fun X nte => coordsS u element 3 >>= fun U => solidCS E V >>= fun D => _ >>= fun s => pure (s, nte))
    (fun he X nte => ?_) fun he X nte => ?_
  · subst he
    refine bind_sim (coordsS_eq u element 3) fun U => bind_sim (solidCS_eq E V) fun D => ?_
    rw [zeros_flatM, zeros_flatV]
    refine loop_tail (loopS_eq storeKF _ _ (fun S g => ?_) 0)
    refine (gradS_bind sf X (ic.points g) _).trans ?_
    cases grad? sf X (ic.points g) with
    | none => rfl
    | some G =>
      refine (solidTLBodyS_eq h2 D U G _ S).trans ?_
      refine congrArg (fun c : K => some (storeKF (S + c • _))) ?_
      simp only [List.prod_cons, List.prod_nil]
      ring
  · rw [coordsS_eq, solidCS_eq]
    cases gather u element element.length 3 with
    | none => rfl
    | some U =>
    cases solidC E V with
    | none => rfl
    | some D =>
      refine congrArg (· >>= _) (foldlM_fails (List.mem_finRange ⟨0, hN⟩) (fun s => ?_) _)
      simp only []
      rw [mul_mismatch _ _ he.symm]
      rfl

/-- **C142**: `PlaneStrainStiffnessUpdatedLagrange`. -/
theorem C142_planeUL (sf : SF ℝ 2 n) (ic : IC ℝ 2) (element doulist : List ℕ)
    (x u : List (Vec ℝ)) (hN : 0 < ic.N) (E V t : ℝ) :
    planeULS sf ic element doulist x u E V t =
      elemKF (fun X U => planeUL sf ic X U E V t) element doulist x u := by
  refine Eq.trans ?_ (elemKF_head _ element doulist x u)
  refine head_eq (fun X => gather u element n 2 >>= fun U => planeUL sf ic X U E V t) storeKF
    (fun X nte => coordsS u element 2 >>= fun U => X.add U >>= fun y => div? (1 / 2 * E) (1 + V) >>= fun mu0 =>
      div? (2 * mu0 * V) (1 - 2 * V) >>= fun lambda0 => _ >>= fun s => pure (s, nte))
    (fun he X nte => ?_) fun he X nte => ?_
  · subst he
    refine bind_sim (coordsS_eq u element 2) fun U => bind_value (C01_mat_add X U) ?_
    unfold planeUL lame
    cases div? (1 / 2 * E) (1 + V) with
    | none => rfl
    | some mu0 =>
    cases h : div? (2 * mu0 * V) (1 - 2 * V) with
    | none => simp [h]
    | some lambda0 =>
    simp only [Option.bind_eq_bind, Option.bind_some, h, Option.pure_def]
    rw [zeros_flatM, zeros_flatV]
    refine loop_tail (loopS_eq storeKF _ _ (fun S g => ?_) 0)
    refine (gradS_bind sf (X + U) (ic.points g) _).trans ?_
    cases grad? sf (X + U) (ic.points g) with
    | none => rfl
    | some G =>
      refine (planeULBodyS_eq sf X (X + U) (ic.points g) mu0 lambda0 G _ S).trans ?_
      simp only []
      cases deformation sf X (X + U) (ic.points g) with
      | none => rfl
      | some F =>
        refine congrArg (fun c : ℝ => some (storeKF (S + c • _))) ?_
        simp only [List.prod_cons, List.prod_nil]
        ring
  · rw [coordsS_eq]
    cases gather u element element.length 2 with
    | none => rfl
    | some U =>
    refine bind_value rfl (bind_value (C01_mat_add X U) ?_)
    cases div? (1 / 2 * E) (1 + V) with
    | none => rfl
    | some mu0 =>
    cases h : div? (2 * mu0 * V) (1 - 2 * V) with
    | none => simp [h]
    | some lambda0 =>
    simp only [Option.bind_eq_bind, Option.bind_some, h]
    refine congrArg (fun o => Option.bind o fun s => pure (s, nte)) (a₂ := none) (foldlM_fails (List.mem_finRange ⟨0, hN⟩) (fun s => ?_) _)
    rw [mul_mismatch _ _ he.symm]
    rfl

/-- **C142**: `SolidUpdatedLagrange`. -/
theorem C142_solidUL (sf : SF ℝ 3 n) (ic : IC ℝ 3) (element doulist : List ℕ)
    (x u : List (Vec ℝ)) (hN : 0 < ic.N) (E V : ℝ) :
    solidULS sf ic element doulist x u E V =
      elemKF (fun X U => solidUL sf ic X U E V) element doulist x u := by
  refine Eq.trans ?_ (elemKF_head _ element doulist x u)
  refine head_eq (fun X => gather u element n 3 >>= fun U => solidUL sf ic X U E V) storeKF
    (fun X nte => coordsS u element 3 >>= fun U => X.add U >>= fun y => div? (1 / 2 * E) (1 + V) >>= fun mu0 =>
      div? (2 * mu0 * V) (1 - 2 * V) >>= fun lambda0 => _ >>= fun s => pure (s, nte))
    (fun he X nte => ?_) fun he X nte => ?_
  · subst he
    refine bind_sim (coordsS_eq u element 3) fun U => bind_value (C01_mat_add X U) ?_
    unfold solidUL lame
    cases div? (1 / 2 * E) (1 + V) with
    | none => rfl
    | some mu0 =>
    cases h : div? (2 * mu0 * V) (1 - 2 * V) with
    | none => simp [h]
    | some lambda0 =>
    simp only [Option.bind_eq_bind, Option.bind_some, h, Option.pure_def]
    rw [zeros_flatM, zeros_flatV]
    refine loop_tail (loopS_eq storeKF _ _ (fun S g => ?_) 0)
    refine (gradS_bind sf (X + U) (ic.points g) _).trans ?_
    cases grad? sf (X + U) (ic.points g) with
    | none => rfl
    | some G =>
      refine (solidULBodyS_eq sf X (X + U) (ic.points g) mu0 lambda0 G _ S).trans ?_
      simp only []
      cases deformation sf X (X + U) (ic.points g) with
      | none => rfl
      | some F =>
        refine congrArg (fun c : ℝ => some (storeKF (S + c • _))) ?_
        simp only [List.prod_cons, List.prod_nil]
        ring
  · rw [coordsS_eq]
    cases gather u element element.length 3 with
    | none => rfl
    | some U =>
    refine bind_value rfl (bind_value (C01_mat_add X U) ?_)
    cases div? (1 / 2 * E) (1 + V) with
    | none => rfl
    | some mu0 =>
    cases h : div? (2 * mu0 * V) (1 - 2 * V) with
    | none => simp [h]
    | some lambda0 =>
    simp only [Option.bind_eq_bind, Option.bind_some, h]
    refine congrArg (fun o => Option.bind o fun s => pure (s, nte)) (a₂ := none) (foldlM_fails (List.mem_finRange ⟨0, hN⟩) (fun s => ?_) _)
    rw [mul_mismatch _ _ he.symm]
    rfl

/-- **C142**: `PlaneStrainSurfacePressureUpdatedLagrange`. -/
theorem C142_pressureUL (sf : SF K 1 n) (ic : IC K 1) (element doulist : List ℕ)
    (x u : List (Vec K)) (hN : 0 < ic.N) (P t : K) :
    pressureULS sf ic element doulist x u P t =
      elemKF (fun X U => pressureUL sf ic X U P t) element doulist x u := by
  refine Eq.trans ?_ (elemKF_head _ element doulist x u)
  refine head_eq (fun X => gather u element n 2 >>= fun U => pressureUL sf ic X U P t) storeKF
    (fun X nte => coordsS u element 2 >>= fun U => X.add U >>= fun y => _ >>= fun s => pure (s, nte))
    (fun he X nte => ?_) fun he X nte => ?_
  · subst he
    refine bind_sim (coordsS_eq u element 2) fun U => bind_value (C01_mat_add X U) ?_
    rw [zeros_flatM, zeros_flatV]
    refine loop_tail (loopS_eq storeKF _ _ (fun S g => ?_) 0)
    refine bind_value (C01_mat_mul _ _) (bind_value (pressureKS_eq _ _) (bind_value (pressureFS_eq _ _)
      (bind_value (scaled_dense _ _) ?_)))
    have hM := flatM_sub S.1 ([1 / 2 * P, t, ic.weights g 0].prod • pressureM (sf.N (ic.points g)) (sf.dNdr (ic.points g)))
    have hV := flatV_add S.2 ([P, t, ic.weights g 0].prod •
      pressureV (sf.N (ic.points g)) (sf.dNdr (ic.points g) * (X + U)))
    refine bind_value hM (bind_value (scaledV_dense _ _) (bind_value hV ?_))
    have hp : [1 / 2 * P, t, ic.weights g 0].prod = 1 / 2 * P * t * ic.weights g 0 := by
      simp only [List.prod_cons, List.prod_nil]; ring
    have hq : [P, t, ic.weights g 0].prod = P * t * ic.weights g 0 := by
      simp only [List.prod_cons, List.prod_nil]; ring
    rw [hp, hq, sub_eq_add_neg]
    rfl
  · rw [coordsS_eq]
    cases gather u element element.length 2 with
    | none => rfl
    | some U =>
    refine bind_value rfl (bind_value (C01_mat_add X U) ?_)
    refine congrArg (· >>= _) (foldlM_fails (List.mem_finRange ⟨0, hN⟩) (fun s => ?_) _)
    simp only []
    rw [mul_mismatch _ _ he.symm]
    rfl

/-! ### What the stored matrices inherit -/

omit [Field K] in
theorem flatM_symm {k : ℕ} {A : Matrix (Fin n × Fin k) (Fin n × Fin k) K} (h : Aᵀ = A) (i j : ℤ) :
    (flatM A).at? i j = (flatM A).at? j i := by
  rw [flatM_dense]
  have hs : (A.submatrix (finProdFinEquiv (m := n) (n := k)).symm finProdFinEquiv.symm)ᵀ =
      A.submatrix finProdFinEquiv.symm finProdFinEquiv.symm := by
    rw [Matrix.transpose_submatrix, h]
  generalize A.submatrix (finProdFinEquiv (m := n) (n := k)).symm finProdFinEquiv.symm = B at hs
  by_cases hb : (0 ≤ i ∧ i < (n * k : ℕ)) ∧ (0 ≤ j ∧ j < (n * k : ℕ))
  · obtain ⟨⟨h1, h2⟩, h3, h4⟩ := hb
    lift i to ℕ using h1
    lift j to ℕ using h3
    have h2' : i < n * k := by exact_mod_cast h2
    have h4' : j < n * k := by exact_mod_cast h4
    have e1 := C01_mat_read B ⟨i, h2'⟩ ⟨j, h4'⟩
    have e2 := C01_mat_read B ⟨j, h4'⟩ ⟨i, h2'⟩
    simp only at e1 e2
    rw [e1, e2]
    exact congrArg some (congrFun (congrFun hs ⟨j, h4'⟩) ⟨i, h2'⟩)
  · unfold Mat.at?
    rw [if_neg (fun h => hb ⟨⟨h.1, h.2.1⟩, h.2.2.1, h.2.2.2⟩),
      if_neg (fun h => hb ⟨⟨h.2.2.1, h.2.2.2⟩, h.1, h.2.1⟩)]

omit [Field K] in
theorem elemKF_some {d k : ℕ} {core : Matrix (Fin n) (Fin d) K → Matrix (Fin n) (Fin k) K →
      Option (Matrix (Fin n × Fin k) (Fin n × Fin k) K × (Fin n × Fin k → K))}
    {element doulist : List ℕ} {x u : List (Vec K)} {Ke : Mat K} {Fe : Vec K} {nte : List (List (ℕ × ℕ))}
    (h : elemKF core element doulist x u = some ((Ke, Fe), nte)) :
    ∃ X U A f, core X U = some (A, f) ∧ Ke = flatM A ∧ Fe = flatV f := by
  obtain ⟨t, _, h⟩ := Option.bind_eq_some_iff.1 h
  obtain ⟨X, _, h⟩ := Option.bind_eq_some_iff.1 h
  obtain ⟨U, _, h⟩ := Option.bind_eq_some_iff.1 h
  obtain ⟨s, hs, h⟩ := Option.bind_eq_some_iff.1 h
  have h := congrArg Prod.fst (Option.some.inj h)
  exact ⟨X, U, s.1, s.2, hs, (congrArg Prod.fst h).symm, (congrArg Prod.snd h).symm⟩

/-- **C142**: the total Lagrange tangent of a plane element in storage is symmetric. -/
theorem C142_planeTL_symmetric [DecidableEq K] (h2 : (2 : K) ≠ 0) {sf : SF K 2 n} {ic : IC K 2}
    {element doulist : List ℕ} {x u : List (Vec K)} (hN : 0 < ic.N) {E V t : K} {Ke : Mat K} {Fe : Vec K}
    {nte : List (List (ℕ × ℕ))} (h : planeTLS sf ic element doulist x u E V t = some ((Ke, Fe), nte)) (i j : ℤ) :
    Ke.at? i j = Ke.at? j i := by
  rw [C142_planeTL h2 sf ic element doulist x u hN] at h
  obtain ⟨X, U, A, f, hA, rfl, -⟩ := elemKF_some h
  exact flatM_symm (C70_planeStrain_symm hA) i j

/-- **C142**: the total Lagrange tangent of a solid element in storage is symmetric. -/
theorem C142_solidTL_symmetric [DecidableEq K] (h2 : (2 : K) ≠ 0) {sf : SF K 3 n} {ic : IC K 3}
    {element doulist : List ℕ} {x u : List (Vec K)} (hN : 0 < ic.N) {E V : K} {Ke : Mat K} {Fe : Vec K}
    {nte : List (List (ℕ × ℕ))} (h : solidTLS sf ic element doulist x u E V = some ((Ke, Fe), nte)) (i j : ℤ) :
    Ke.at? i j = Ke.at? j i := by
  rw [C142_solidTL h2 sf ic element doulist x u hN] at h
  obtain ⟨X, U, A, f, hA, rfl, -⟩ := elemKF_some h
  exact flatM_symm (C70_solid_symm hA) i j

/-- **C142**: so is the tangent of the pressure. -/
theorem C142_pressureUL_symmetric {sf : SF K 1 n} {ic : IC K 1}
    {element doulist : List ℕ} {x u : List (Vec K)} (hN : 0 < ic.N) {P t : K} {Ke : Mat K} {Fe : Vec K}
    {nte : List (List (ℕ × ℕ))} (h : pressureULS sf ic element doulist x u P t = some ((Ke, Fe), nte)) (i j : ℤ) :
    Ke.at? i j = Ke.at? j i := by
  rw [C142_pressureUL sf ic element doulist x u hN] at h
  obtain ⟨X, U, A, f, hA, rfl, -⟩ := elemKF_some h
  refine flatM_symm ?_ i j
  obtain ⟨v, hv, hs⟩ := gauss_eq_some.1 hA
  have hA' : A = ∑ g, (v g).1 := by
    have := congrArg Prod.fst hs
    rw [Prod.fst_sum] at this
    exact this
  rw [hA', Matrix.transpose_sum]
  refine Finset.sum_congr rfl fun g _ => ?_
  rw [← Option.some.inj (hv g)]
  show (-(_ • pressureM _ _))ᵀ = -(_ • pressureM _ _)
  rw [Matrix.transpose_neg, Matrix.transpose_smul]
  congr 2
  ext ⟨i, a⟩ ⟨j, b⟩
  fin_cases a <;> fin_cases b <;> simp [pressureM] <;> ring

/-- **C142**: the element loop of sample_totallagrange.cpp and sample_updatedlagrange.cpp, whose model has the matrices
of `Verif/Model/Nonlinear.lean`, makes the calls of a loop over the routines on `Matrix` and `Vector` objects. -/
theorem C142_calls {d k : ℕ} {core : Matrix (Fin n) (Fin d) ℝ → Matrix (Fin n) (Fin k) ℝ →
      Option (Matrix (Fin n × Fin k) (Fin n × Fin k) ℝ × (Fin n × Fin k → ℝ))}
    {doulist : List ℕ} {x u : List (Vec ℝ)} {elements : List (List ℕ)}
    {routine : List ℕ → Option ((Mat ℝ × Vec ℝ) × List (List (ℕ × ℕ)))}
    (h : ∀ e, routine e = elemKF core e doulist x u) :
    bothCalls k core doulist x elements u =
      elements.mapM fun e => routine e >>= fun s => pure (.both s.1.1 s.1.2 s.2 e) := by
  unfold bothCalls
  congr 1
  funext e
  rw [h e]
  unfold elemKF
  simp only [bind_assoc]
  rfl

/-- **C142**: the loop of sample_totallagrange.cpp. -/
theorem C142_solidTL_calls (x u : List (Vec ℝ)) (elements : List (List ℕ)) (E V : ℝ) :
    bothCalls 3 (fun X U => solidTL SF.cubic8 IC.gauss8Cubic X U E V) [0, 1, 2] x elements u =
      elements.mapM fun e => solidTLS SF.cubic8 IC.gauss8Cubic e [0, 1, 2] x u E V >>= fun s =>
        pure (.both s.1.1 s.1.2 s.2 e) :=
  C142_calls fun e => C142_solidTL two_ne_zero _ _ e _ x u (by norm_num [IC.gauss8Cubic]) E V

/-- **C142**: the loop of sample_updatedlagrange.cpp. -/
theorem C142_solidUL_calls (x u : List (Vec ℝ)) (elements : List (List ℕ)) (E V : ℝ) :
    bothCalls 3 (fun X U => solidUL SF.cubic8 IC.gauss8Cubic X U E V) [0, 1, 2] x elements u =
      elements.mapM fun e => solidULS SF.cubic8 IC.gauss8Cubic e [0, 1, 2] x u E V >>= fun s =>
        pure (.both s.1.1 s.1.2 s.2 e) :=
  C142_calls fun e => C142_solidUL _ _ e _ x u (by norm_num [IC.gauss8Cubic]) E V

/-! ### Cases -/

theorem gather_triangle (a b c d e f : ℝ) : gather [⟨[a, b]⟩, ⟨[c, d]⟩, ⟨[e, f]⟩] [0, 1, 2] 3 2 =
    some !![a, b; c, d; e, f] := by
  unfold gather
  refine (if_pos rfl).trans ?_
  refine allSome_eq_some.2 fun i => allSome_eq_some.2 fun k => ?_
  fin_cases i <;> fin_cases k <;> rfl

/-- A deformed triangle has a tangent and a residual in storage. -/
example : ∃ Ke Fe nte, planeTLS (SF.triangle3 : SF ℝ 2 3) exRuleR [0, 1, 2] [0, 1]
    [⟨[2, 0]⟩, ⟨[0, 1]⟩, ⟨[0, 0]⟩] [⟨[0, 0]⟩, ⟨[1 / 2, 0]⟩, ⟨[0, -1]⟩] 5 (1 / 4) 1 = some ((Ke, Fe), nte) ∧
      Ke.at? 0 5 = Ke.at? 5 0 := by
  have hX : ∃ p, planeTL (SF.triangle3 : SF ℝ 2 3) exRuleR !![2, 0; 0, 1; 0, 0] !![0, 0; 1 / 2, 0; 0, -1] 5 (1 / 4) 1 =
      some p := exPlaneTL 5 _ 1
  obtain ⟨p, hp⟩ := hX
  have h : planeTLS (SF.triangle3 : SF ℝ 2 3) exRuleR [0, 1, 2] [0, 1]
      [⟨[2, 0]⟩, ⟨[0, 1]⟩, ⟨[0, 0]⟩] [⟨[0, 0]⟩, ⟨[1 / 2, 0]⟩, ⟨[0, -1]⟩] 5 (1 / 4) 1 =
      some ((flatM p.1, flatV p.2), [[(0, 0), (1, 1)], [(0, 2), (1, 3)], [(0, 4), (1, 5)]]) := by
    rw [C142_planeTL two_ne_zero _ _ _ _ _ _ (by norm_num [exRuleR])]
    exact bind_value rfl (bind_value (gather_triangle _ _ _ _ _ _) (bind_value (gather_triangle _ _ _ _ _ _)
      (bind_value hp rfl)))
  exact ⟨_, _, _, h, C142_planeTL_symmetric two_ne_zero (by norm_num [exRuleR]) h 0 5⟩

example (x u : List (Vec ℝ)) (E V : ℝ) :
    solidULS SF.cubic8 IC.gauss8Cubic [0, 1, 2, 3, 4, 5, 6, 7] [0, 1, 2] x u E V =
      elemKF (fun X U => solidUL SF.cubic8 IC.gauss8Cubic X U E V) [0, 1, 2, 3, 4, 5, 6, 7] [0, 1, 2] x u :=
  C142_solidUL _ _ _ _ _ _ (by norm_num [IC.gauss8Cubic]) E V

/-- Two nodes for four shape functions: the product of `dNdr` and `X` fails. -/
example (E V t : ℝ) : planeULS SF.square4 IC.gauss4Square [0, 1] [0, 1] [⟨[0, 0]⟩, ⟨[1, 0]⟩] [⟨[0, 0]⟩, ⟨[1, 0]⟩] E V t =
    none :=
  (C142_planeUL _ _ _ _ _ _ (by norm_num [IC.gauss4Square]) E V t).trans rfl

/-- The pressure on an edge of two nodes. -/
example : ∃ Ke Fe nte, pressureULS (SF.line2 : SF ℝ 1 2) IC.gauss2Line [1, 0] [0, 1]
    [⟨[0, 0]⟩, ⟨[2, 0]⟩] [⟨[0, 0]⟩, ⟨[1, 1]⟩] 3 1 = some ((Ke, Fe), nte) ∧ Ke.at? 0 3 = Ke.at? 3 0 := by
  have hg : ∀ a b c d : ℝ, gather [⟨[a, b]⟩, ⟨[c, d]⟩] [1, 0] 2 2 = some !![c, d; a, b] := by
    intro a b c d
    unfold gather
    refine (if_pos rfl).trans ?_
    refine allSome_eq_some.2 fun i => allSome_eq_some.2 fun k => ?_
    fin_cases i <;> fin_cases k <;> rfl
  obtain ⟨p, hp⟩ : ∃ p, pressureUL (SF.line2 : SF ℝ 1 2) IC.gauss2Line !![2, 0; 0, 0] !![1, 1; 0, 0] 3 1 = some p :=
    ⟨_, gauss_eq_some.2 ⟨_, fun g => rfl, rfl⟩⟩
  have h : pressureULS (SF.line2 : SF ℝ 1 2) IC.gauss2Line [1, 0] [0, 1]
      [⟨[0, 0]⟩, ⟨[2, 0]⟩] [⟨[0, 0]⟩, ⟨[1, 1]⟩] 3 1 =
      some ((flatM p.1, flatV p.2), [[(0, 0), (1, 1)], [(0, 2), (1, 3)]]) := by
    rw [C142_pressureUL _ _ _ _ _ _ (by norm_num [IC.gauss2Line])]
    exact bind_value rfl (bind_value (hg _ _ _ _) (bind_value (hg _ _ _ _) (bind_value hp rfl)))
  exact ⟨_, _, _, h, C142_pressureUL_symmetric (by norm_num [IC.gauss2Line]) h 0 3⟩

end Pansfem
