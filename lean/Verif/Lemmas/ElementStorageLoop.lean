/-
The loops over the integration points of the storage-level element routines.
-/
import Verif.Lemmas.ElementStorageB

noncomputable section

namespace Pansfem

open Matrix

variable {K : Type} [Field K] {n : ℕ}

/-! ### Layout -/

omit [Field K] in
theorem flatM_dense {k : ℕ} (A : Matrix (Fin n × Fin k) (Fin n × Fin k) K) :
    flatM A = dense (A.submatrix finProdFinEquiv.symm finProdFinEquiv.symm) := by
  have hv : ∀ (A B : Mat K), A.row = B.row → A.col = B.col → A.values = B.values → A = B := by
    intro A B h1 h2 h3; cases A; cases B; simp_all
  refine hv _ _ rfl rfl ?_
  rw [dense_values_eq]
  rfl

omit [Field K] in
theorem flatV_densev {k : ℕ} (f : Fin n × Fin k → K) : flatV f = densev (f ∘ finProdFinEquiv.symm) := rfl

theorem zeros_flatM (k : ℕ) : Mat.zeros (k * n) (k * n) = flatM (0 : Matrix (Fin n × Fin k) (Fin n × Fin k) K) := by
  rw [flatM_dense, Nat.mul_comm, C01_mat_zeros]
  rfl

theorem zeros_flatV (k : ℕ) : Vec.zeros (k * n) = flatV (0 : Fin n × Fin k → K) := by
  rw [flatV_densev, Nat.mul_comm, C01_vec_zeros]
  rfl

theorem flatM_add {k : ℕ} (A B : Matrix (Fin n × Fin k) (Fin n × Fin k) K) :
    (flatM A).add (dense (B.submatrix finProdFinEquiv.symm finProdFinEquiv.symm)) = some (flatM (A + B)) := by
  rw [flatM_dense, C01_mat_add, flatM_dense]
  rfl

theorem flatV_add {k : ℕ} (f g : Fin n × Fin k → K) :
    (flatV f).add (densev (g ∘ finProdFinEquiv.symm)) = some (flatV (f + g)) := by
  rw [flatV_densev, C01_vec_add, flatV_densev]
  rfl

theorem scaled_dense {r c : ℕ} (M : Matrix (Fin r) (Fin c) K) (l : List K) :
    scaled (dense M) l = some (dense (l.prod • M)) := by
  unfold scaled
  induction l generalizing M with
  | nil => simp
  | cons a l ih =>
    rw [List.foldlM_cons]
    refine bind_value (C01_mat_smul M a) ?_
    rw [ih, List.prod_cons, smul_smul, mul_comm]

theorem scaledV_dense {r : ℕ} (v : Fin r → K) (l : List K) :
    scaledV (densev v) l = some (densev (l.prod • v)) := by
  unfold scaledV
  induction l generalizing v with
  | nil => simp
  | cons a l ih =>
    rw [List.foldlM_cons]
    refine bind_value (C01_vec_smul v a) ?_
    rw [ih, List.prod_cons, smul_smul, mul_comm]

theorem mul_mismatch {r c r' c' : ℕ} (M : Matrix (Fin r) (Fin c) K) (N : Matrix (Fin r') (Fin c') K)
    (h : c ≠ r') : (dense M).mul (dense N) = none := by
  unfold Mat.mul
  rw [if_neg (by simpa using h)]

theorem mulVec_mismatch {r c m : ℕ} (M : Matrix (Fin r) (Fin c) K) (v : Fin m → K)
    (h : c ≠ m) : (dense M).mulVec (densev v) = none := by
  unfold Mat.mulVec
  rw [if_neg (by simpa using h)]

/-- The three matrices before the terms of a loop. -/
theorem gradS_bind [DecidableEq K] {m : ℕ} {T : Type} (sf : SF K (m + 1) n) (X : Matrix (Fin n) (Fin (m + 1)) K)
    (r : Fin (m + 1) → K) (k : K → Mat K → Option T) :
    ((dense (sf.dNdr r)).mul (dense X) >>= fun dXdr => dXdr.determinant >>= fun J =>
      dXdr.inverse >>= fun I => I.mul (dense (sf.dNdr r)) >>= fun dNdX => k J dNdX) =
      (grad? sf X r >>= fun G => k (jac sf X r).det (dense G)) := by
  refine bind_value (C01_mat_mul _ _) (bind_value (C02_determinant _) ?_)
  have hi := C03_inverse (sf.dNdr r * X)
  unfold grad? inv? jac
  by_cases h : (sf.dNdr r * X).det = 0
  · rw [if_pos h] at hi ⊢
    rw [hi]; rfl
  · rw [if_neg h] at hi ⊢
    refine bind_value hi (bind_value (C01_mat_mul _ _) rfl)

/-! ### The head of a routine -/

/-- A routine: the table, the coordinates, the rest. -/
theorem head_eq {d k : ℕ} {C T : Type} {element doulist : List ℕ} {x : List (Vec K)}
    (core : Matrix (Fin n) (Fin d) K → Option C) (out : C → T)
    (tail : Mat K → List (List (ℕ × ℕ)) → Option (T × List (List (ℕ × ℕ))))
    (h1 : element.length = n → ∀ (X : Matrix (Fin n) (Fin d) K) nte,
      tail (dense X) nte = (core X).map fun A => (out A, nte))
    (h2 : element.length ≠ n → ∀ (X : Matrix (Fin element.length) (Fin d) K) nte,
      tail (dense X) nte = none) :
    (tableS k element doulist >>= fun nte => coordsS x element d >>= fun X => tail X nte) =
      (interleaved k element.length doulist >>= fun nte => gather x element n d >>= fun X =>
        core X >>= fun A => pure (out A, nte)) := by
  rw [tableS_eq, coordsS_eq]
  cases interleaved k element.length doulist with
  | none => rfl
  | some nte =>
    show ((gather x element element.length d).map dense >>= fun X => tail X nte) =
      (gather x element n d >>= fun X => core X >>= fun A => pure (out A, nte))
    by_cases hn : element.length = n
    · subst hn
      cases gather x element element.length d with
      | none => rfl
      | some X =>
        refine (h1 rfl X nte).trans ?_
        show _ = (core X >>= fun A => pure (out A, nte))
        cases core X <;> rfl
    · have hg : gather x element n d = none := by unfold gather; exact if_neg hn
      rw [hg]
      cases gather x element element.length d with
      | none => rfl
      | some X => exact h2 hn X nte

/-! ### The loops -/

/-- A loop that adds its terms to an object holding `A`. -/
theorem loopS_eq {M T : Type} [AddCommMonoid M] {N : ℕ} (e : M → T) (term : Fin N → Option M)
    (step : T → Fin N → Option T) (h : ∀ S g, step (e S) g = (term g).map fun v => e (S + v)) (A : M) :
    (List.finRange N).foldlM step (e A) = (gauss N term).map fun S => e (A + S) := by
  have h2 := congrArg (Option.map e) (gauss_from term A)
  rw [Option.map_map] at h2
  refine Eq.trans ?_ h2
  refine foldlM_sim (e := e) (fun S g => (h S g).trans ?_) (List.finRange N) A
  cases term g <;> rfl

theorem congr_flat {R k : ℕ} (B : Matrix (Fin R) (Fin n × Fin k) K) (D : Matrix (Fin R) (Fin R) K) (c : K) :
    c • ((B.submatrix id finProdFinEquiv.symm)ᵀ * D * B.submatrix id finProdFinEquiv.symm) =
      (c • (Bᵀ * D * B)).submatrix (finProdFinEquiv (m := n) (n := k)).symm finProdFinEquiv.symm := rfl

section Plane
variable [DecidableEq K] {sf : SF K 2 n} {ic : IC K 2} {element : List ℕ}

theorem planeLoopS_eq {build : ℕ → Mat K → Option (Mat K)}
    {Bf : Matrix (Fin 2) (Fin n) K → Matrix (Fin 3) (Fin n × Fin 2) K}
    (hB : ∀ G, build n (dense G) = some (dense ((Bf G).submatrix id finProdFinEquiv.symm)))
    (he : element.length = n) (X : Matrix (Fin n) (Fin 2) K) (D : Matrix (Fin 3) (Fin 3) K) (t : K)
    (A : Matrix (Fin n × Fin 2) (Fin n × Fin 2) K) :
    planeLoopS sf ic element build (dense X) (dense D) t (flatM A) =
      (loop2 sf ic X fun _ dNdX => some (t • ((Bf dNdX)ᵀ * D * Bf dNdX))).map fun S => flatM (A + S) := by
  unfold planeLoopS loop2
  rw [he]
  refine loopS_eq flatM _ _ (fun S g => ?_) A
  refine (gradS_bind sf X (ic.points g) _).trans ?_
  cases grad? sf X (ic.points g) with
  | none => rfl
  | some G =>
    refine bind_value rfl (bind_value (hB G) (bind_value (C01_mat_transpose _) (bind_value (C01_mat_mul _ _)
      (bind_value (C01_mat_mul _ _) (bind_value (scaled_dense _ _) ?_)))))
    rw [congr_flat, flatM_add]
    refine congrArg (fun M => some (flatM (S + M))) ?_
    rw [smul_smul]
    congr 1
    simp only [List.prod_cons, List.prod_nil]
    ring

theorem planeLoopS_none (build : ℕ → Mat K → Option (Mat K)) (hN : 0 < ic.N) {m : ℕ} (hm : m ≠ n)
    (X : Matrix (Fin m) (Fin 2) K) (D : Mat K) (t : K) (A : Mat K) :
    planeLoopS sf ic element build (dense X) D t A = none := by
  unfold planeLoopS
  refine foldlM_fails (List.mem_finRange ⟨0, hN⟩) (fun s => ?_) A
  simp only []
  rw [mul_mismatch _ _ hm.symm]
  rfl

/-- Three sums in one pass. -/
theorem gauss_prod {M M' : Type} [AddCommMonoid M] [AddCommMonoid M'] {N : ℕ} (f : Fin N → Option M)
    (h : Fin N → Option M') :
    gauss N (fun g => do return (← f g, ← h g)) = (do return (← gauss N f, ← gauss N h)) := by
  cases hf : gauss N f with
  | none =>
    cases hp : gauss N (fun g => do return (← f g, ← h g)) with
    | none => rfl
    | some s =>
      obtain ⟨v, hv, _⟩ := gauss_eq_some.1 hp
      have : gauss N f = some (∑ g, (v g).1) := gauss_eq_some.2 ⟨fun g => (v g).1, fun g => by
        have := hv g
        cases hfg : f g with
        | none => rw [hfg] at this; cases this
        | some a =>
          rw [hfg] at this
          cases hhg : h g with
          | none => rw [hhg] at this; cases this
          | some b =>
            rw [hhg] at this
            exact congrArg (Option.map Prod.fst) this, rfl⟩
      rw [this] at hf; cases hf
  | some a =>
    cases hh : gauss N h with
    | none =>
      cases hp : gauss N (fun g => do return (← f g, ← h g)) with
      | none => rfl
      | some s =>
        obtain ⟨v, hv, _⟩ := gauss_eq_some.1 hp
        have : gauss N h = some (∑ g, (v g).2) := gauss_eq_some.2 ⟨fun g => (v g).2, fun g => by
          have := hv g
          cases hfg : f g with
          | none => rw [hfg] at this; cases this
          | some a =>
            rw [hfg] at this
            cases hhg : h g with
            | none => rw [hhg] at this; cases this
            | some b =>
              rw [hhg] at this
              exact congrArg (Option.map Prod.snd) this, rfl⟩
        rw [this] at hh; cases hh
    | some b =>
      obtain ⟨v, hv, rfl⟩ := gauss_eq_some.1 hf
      obtain ⟨w, hw, rfl⟩ := gauss_eq_some.1 hh
      refine gauss_eq_some.2 ⟨fun g => (v g, w g), fun g => by rw [hv, hw]; rfl, ?_⟩
      refine Prod.ext ?_ ?_
      · exact (map_sum (AddMonoidHom.fst M M') (fun g => (v g, w g)) Finset.univ).symm
      · exact (map_sum (AddMonoidHom.snd M M') (fun g => (v g, w g)) Finset.univ).symm

theorem triple_bind {A B C T : Type} (a : Option A) (b : Option B) (c : Option C) (f : A × B × C → T) :
    (do return (← a, ← (do return (← b, ← c))) : Option (A × B × C)).map f =
      (a >>= fun a => b >>= fun b => c >>= fun c => pure (f (a, b, c))) := by
  cases a with
  | none => rfl
  | some a =>
    cases b with
    | none => rfl
    | some b => cases c <;> rfl

/-- The three matrices of the incompatible modes in storage. -/
def storeWT (s : Matrix (Fin n × Fin 2) (Fin n × Fin 2) K × Matrix (Fin 4) (Fin 4) K ×
    Matrix (Fin 4) (Fin n × Fin 2) K) : Mat K × Mat K × Mat K :=
  (flatM s.1, dense s.2.1, dense (s.2.2.submatrix id finProdFinEquiv.symm))

theorem wilsonTaylorLoopS_eq (he : element.length = n) (X : Matrix (Fin n) (Fin 2) K)
    (D : Matrix (Fin 3) (Fin 3) K) (t : K) :
    wilsonTaylorLoopS sf ic element (dense X) (dense D) t (Mat.zeros (2 * element.length) (2 * element.length),
      Mat.zeros 4 4, Mat.zeros 4 (2 * element.length)) =
    (do
      let Ke ← loop2 sf ic X fun _ dNdX => some (t • ((planeB dNdX)ᵀ * D * planeB dNdX))
      let Keaa ← loop2 sf ic X fun r _ => do
        let G := planeG r (← inv? (jac sf X r))
        return t • (Gᵀ * D * G)
      let Kead ← loop2 sf ic X fun r dNdX => do
        let G := planeG r (← inv? (jac sf X r))
        return t • (Gᵀ * D * planeB dNdX)
      return storeWT (Ke, Keaa, Kead)) := by
  have h0 : (Mat.zeros (2 * element.length) (2 * element.length), Mat.zeros 4 4,
      Mat.zeros 4 (2 * element.length)) = storeWT (n := n) (0 : _ × _ × _ ) (K := K) := by
    unfold storeWT
    rw [he, zeros_flatM, C01_mat_zeros, Nat.mul_comm, C01_mat_zeros]
    rfl
  rw [h0]
  unfold wilsonTaylorLoopS loop2
  have hs := loopS_eq (storeWT (n := n) (K := K)) (fun g => do
    let a ← (do
      let dNdX ← grad? sf X (ic.points g)
      return ((jac sf X (ic.points g)).det * ic.weights g 0 * ic.weights g 1) •
        (← some (t • ((planeB dNdX)ᵀ * D * planeB dNdX))))
    let bc ← (do
      let b ← (do
        let _ ← grad? sf X (ic.points g)
        return ((jac sf X (ic.points g)).det * ic.weights g 0 * ic.weights g 1) • (← (do
          let G := planeG (ic.points g) (← inv? (jac sf X (ic.points g)))
          return t • (Gᵀ * D * G))))
      let c ← (do
        let dNdX ← grad? sf X (ic.points g)
        return ((jac sf X (ic.points g)).det * ic.weights g 0 * ic.weights g 1) • (← (do
          let G := planeG (ic.points g) (← inv? (jac sf X (ic.points g)))
          return t • (Gᵀ * D * planeB dNdX))))
      return (b, c))
    return (a, bc)) (wilsonTaylorStepS sf ic element (dense X) (dense D) t) ?_ 0
  · refine hs.trans ?_
    rw [gauss_prod, gauss_prod]
    simp only [zero_add]
    exact triple_bind _ _ _ _
  · intro S g
    unfold wilsonTaylorStepS
    simp only []
    rw [he]
    have hi := C03_inverse (sf.dNdr (ic.points g) * X)
    refine bind_value (C01_mat_mul _ _) (bind_value (C02_determinant _) ?_)
    unfold grad? inv? jac
    by_cases h : (sf.dNdr (ic.points g) * X).det = 0
    · rw [if_pos h] at hi
      simp only [if_pos h]
      rw [hi]; rfl
    · rw [if_neg h] at hi
      simp only [if_neg h]
      refine bind_value hi (bind_value (C01_mat_mul _ _) (bind_value (planeBS_eq _) (bind_value (dPdrS_eq _)
        (bind_value hi (bind_value (C01_mat_mul _ _) (bind_value (planeGS_eq _)
        (bind_value (C01_mat_transpose _) (bind_value (C01_mat_mul _ _) (bind_value (C01_mat_mul _ _)
        (bind_value (scaled_dense _ _) (bind_value
          ((congrArg (Mat.add · _) (flatM_dense S.1)).trans (C01_mat_add _ _))
        (bind_value (C01_mat_transpose _) (bind_value (C01_mat_mul _ _) (bind_value (C01_mat_mul _ _)
        (bind_value (scaled_dense _ _) (bind_value (C01_mat_add _ _)
        (bind_value (C01_mat_transpose _) (bind_value (C01_mat_mul _ _) (bind_value (C01_mat_mul _ _)
        (bind_value (scaled_dense _ _) (bind_value (C01_mat_add _ _) ?_)))))))))))))))))))))
      have hp : [(sf.dNdr (ic.points g) * X).det, t, ic.weights g 0, ic.weights g 1].prod =
          (sf.dNdr (ic.points g) * X).det * ic.weights g 0 * ic.weights g 1 * t := by
        simp only [List.prod_cons, List.prod_nil]
        ring
      rw [hp]
      refine congrArg some (Prod.ext ?_ (Prod.ext ?_ ?_))
      · show _ = flatM _
        rw [flatM_dense]
        simp only [smul_smul]
        rfl
      · show _ = dense _
        simp only [smul_smul]
        rfl
      · show _ = dense _
        simp only [smul_smul]
        rfl

theorem wilsonTaylorLoopS_none (hN : 0 < ic.N) {m : ℕ} (hm : m ≠ n)
    (X : Matrix (Fin m) (Fin 2) K) (D : Mat K) (t : K) (s : Mat K × Mat K × Mat K) :
    wilsonTaylorLoopS sf ic element (dense X) D t s = none := by
  unfold wilsonTaylorLoopS
  refine foldlM_fails (List.mem_finRange ⟨0, hN⟩) (fun s => ?_) s
  unfold wilsonTaylorStepS
  simp only []
  rw [mul_mismatch _ _ hm.symm]
  rfl

end Plane

/-- Three values on either side. -/
theorem bind_sim3 {A B C S U V : Type} {f : Option A} {f2 : Option B} {f3 : Option C} {st : A × B × C → S}
    {k : A → B → C → Option U} {k' : S → Option V} {g : U → V}
    (hk : ∀ a b c, k' (st (a, b, c)) = (k a b c).map g) :
    ((f >>= fun a => f2 >>= fun b => f3 >>= fun c => pure (st (a, b, c))) >>= k') =
      (f >>= fun a => f2 >>= fun b => f3 >>= fun c => k a b c).map g := by
  cases f with
  | none => rfl
  | some a =>
    cases f2 with
    | none => rfl
    | some b =>
      cases f3 with
      | none => rfl
      | some c => exact hk a b c

/-- The end of a routine with one loop. -/
theorem loop_tail {M T : Type} [AddCommMonoid M] {e : M → T} {nte : List (List (ℕ × ℕ))} {l : Option T}
    {s : Option M} (h : l = s.map fun S => e (0 + S)) :
    (l >>= fun A => pure (A, nte)) = s.map fun A => (e A, nte) := by
  subst h
  cases s with
  | none => rfl
  | some S => exact congrArg (fun A => some (e A, nte)) (zero_add S)

theorem congr_flat1 {R k : ℕ} (B : Matrix (Fin R) (Fin n × Fin k) K) (c : K) :
    dense (c • ((B.submatrix id finProdFinEquiv.symm)ᵀ * B.submatrix id finProdFinEquiv.symm)) =
      dense ((c • (Bᵀ * B)).submatrix (finProdFinEquiv (m := n) (n := k)).symm finProdFinEquiv.symm) := rfl

theorem congr_flatV {R k : ℕ} (B : Matrix (Fin R) (Fin n × Fin k) K) (w : Fin R → K) (c : K) :
    densev (c • ((B.submatrix id finProdFinEquiv.symm)ᵀ *ᵥ w)) =
      densev ((c • (Bᵀ *ᵥ w)) ∘ (finProdFinEquiv (m := n) (n := k)).symm) := rfl

omit [Field K] in
theorem dense_cast {m : ℕ} (h : m = n) (A : Matrix (Fin n) (Fin n) K) :
    dense (A.submatrix (Fin.cast h) (Fin.cast h)) = dense A := by
  subst h; rfl

theorem pair_one (p : Fin (n * 1)) : (finProdFinEquiv.symm p).1 = Fin.cast (Nat.mul_one n) p := by
  ext; simp

omit [Field K] in
theorem flatM_scalar (A : Matrix (Fin n) (Fin n) K) :
    flatM (A.submatrix (Prod.fst : Fin n × Fin 1 → Fin n) Prod.fst) = dense A := by
  rw [flatM_dense, ← dense_cast (Nat.mul_one n) A]
  congr 1
  ext p q
  simp only [Matrix.submatrix_apply, pair_one]

omit [Field K] in
theorem flatV_scalar (f : Fin n → K) : flatV (fun p : Fin n × Fin 1 => f p.1) = densev f := by
  have h : ∀ {m : ℕ} (h : m = n), densev (f ∘ Fin.cast h) = densev f := by
    intro m h; subst h; rfl
  rw [flatV_densev, ← h (Nat.mul_one n)]
  congr 1
  funext p
  simp only [Function.comp_apply, pair_one]

omit [Field K] in
theorem scalar_head {d : ℕ} (core : Matrix (Fin n) (Fin d) K → Option (Matrix (Fin n) (Fin n) K))
    (element doulist : List ℕ) (x : List (Vec K)) :
    (interleaved 1 element.length doulist >>= fun nte => gather x element n d >>= fun X =>
        core X >>= fun A => pure (dense A, nte)) = elemM 1 (scalarCore core) element doulist x := by
  unfold elemM scalarCore
  cases interleaved 1 element.length doulist with
  | none => rfl
  | some nte =>
    cases gather x element n d with
    | none => rfl
    | some X =>
      show (core X >>= fun A => pure (dense A, nte)) = ((core X).map _ >>= fun A => pure (flatM A, nte))
      cases core X with
      | none => rfl
      | some A => exact congrArg (fun B => some (B, nte)) (flatM_scalar A).symm

omit [Field K] in
theorem scalar_headV {d : ℕ} (core : Matrix (Fin n) (Fin d) K → Option (Fin n → K))
    (element doulist : List ℕ) (x : List (Vec K)) :
    (interleaved 1 element.length doulist >>= fun nte => gather x element n d >>= fun X =>
        core X >>= fun A => pure (densev A, nte)) =
      elemV 1 (fun X => (core X).map fun v => fun p => v p.1) element doulist x := by
  unfold elemV
  cases interleaved 1 element.length doulist with
  | none => rfl
  | some nte =>
    cases gather x element n d with
    | none => rfl
    | some X =>
      show (core X >>= fun A => pure (densev A, nte)) = ((core X).map _ >>= fun A => pure (flatV A, nte))
      cases core X with
      | none => rfl
      | some A => exact congrArg (fun B => some (B, nte)) (flatV_scalar A).symm

end Pansfem
