/-
The storage-level routines of the truss, the beam and the shell.
-/
import Verif.Model.ElementStorageShell
import Verif.Lemmas.ElementStorageNonlinear
import Verif.Lemmas.Shell

noncomputable section

namespace Pansfem

open Matrix

variable {n : ℕ}

theorem normalS_eq (v : Fin 3 → ℝ) : normalS (densev v) = (normal? v).map densev := by
  unfold normalS normal?
  refine bind_value (C01_normSq v) ?_
  have h : (∑ i, v i ^ 2) = v ⬝ᵥ v := Finset.sum_congr rfl fun i _ => pow_two _
  rw [h]
  by_cases h0 : Real.sqrt (v ⬝ᵥ v) = 0
  · rw [if_pos h0, h0]
    unfold Vec.sdiv
    simp
  · rw [if_neg h0, C01_vec_sdiv _ _ h0]
    rfl

theorem crossS_eq (v w : Fin 3 → ℝ) : (densev v).cross (densev w) = some (densev (cross3 v w)) := by
  rw [C01_cross, cross_apply]
  rfl

/-- The object whose rows are the vectors of a list. -/
def rowsMat (l : List (Fin 3 → ℝ)) : Mat ℝ := ⟨l.length, 3, (l.map List.ofFn).flatten⟩

theorem rowsMat_ofFn (w : Fin n → Fin 3 → ℝ) : rowsMat (List.ofFn w) = dense (Matrix.of w) := by
  unfold rowsMat dense
  rw [List.length_ofFn, List.map_ofFn]
  rfl

theorem rowS_eq (l : List (Fin 3 → ℝ)) (w : Fin 3 → ℝ) : rowS (rowsMat l) (densev w) = some (rowsMat (l ++ [w])) := by
  unfold rowS
  refine bind_value (C01_vec_transpose w) ?_
  have hl : rowsMat l = dense (Matrix.of l.get) := by
    conv_lhs => rw [← List.ofFn_get l]
    exact rowsMat_ofFn _
  rw [hl, C01_mat_vstack]
  have hw : l ++ [w] = List.ofFn (Fin.append l.get fun _ : Fin 1 => w) := by
    rw [List.ofFn_fin_append, List.ofFn_get]
    rfl
  rw [hw, rowsMat_ofFn]
  rfl

/-- A loop that appends what it computes. -/
theorem append_loop {α T : Type} {N : ℕ} (e : List α → T) (g : Fin N → Option α) (step : T → Fin N → Option T)
    (h : ∀ l i, step (e l) i = (g i).map fun w => e (l ++ [w])) :
    (List.finRange N).foldlM step (e []) = (allSome g).map fun w => e (List.ofFn w) := by
  cases hg : allSome g with
  | none =>
    obtain ⟨i, hi⟩ := allSome_none hg
    have : (List.finRange N).foldlM step (e []) = ((List.finRange N).foldlM (fun l i =>
        (g i).map fun w => l ++ [w]) []).map e := by
      refine foldlM_sim (e := e) (fun l i => ?_) _ _
      rw [h, Option.map_map]
      rfl
    rw [this, foldlM_fails (List.mem_finRange i) (fun l => by rw [hi]; rfl)]
    rfl
  | some w =>
    have hw := allSome_eq_some.1 hg
    have key : ∀ (L : List (Fin N)) (l : List α), L.foldlM step (e l) = some (e (l ++ L.map w)) := by
      intro L
      induction L with
      | nil => intro l; simp
      | cons a L ih =>
        intro l
        rw [List.foldlM_cons, h, hw]
        refine (ih (l ++ [w a])).trans ?_
        simp
    rw [key, List.nil_append, ← List.ofFn_eq_map]
    rfl

theorem allSome_bind {α β T : Type} (g : Fin n → Option α) (f : α → Option β) (k : (Fin n → β) → Option T) :
    (allSome (fun i => g i >>= f) >>= k) = (allSome g >>= fun V => (allSome fun i => f (V i)) >>= k) := by
  cases hg : allSome g with
  | none =>
    obtain ⟨i, hi⟩ := allSome_none hg
    have : allSome (fun i => g i >>= f) = none := by
      cases hs : allSome (fun i => g i >>= f) with
      | none => rfl
      | some v => have := allSome_eq_some.1 hs i; rw [hi] at this; cases this
    rw [this]; rfl
  | some V =>
    have hV := allSome_eq_some.1 hg
    have : (fun i => g i >>= f) = fun i => f (V i) := by
      funext i; rw [hV]; rfl
    rw [this]; rfl

theorem allSome_pair {α β T : Type} (a : Fin n → Option α) (b : Fin n → Option β) (k : (Fin n → α × β) → Option T) :
    (allSome (fun i => do return (← a i, ← b i)) >>= k) =
      (allSome a >>= fun A => allSome b >>= fun B => k fun i => (A i, B i)) := by
  cases ha : allSome a with
  | none =>
    obtain ⟨i, hi⟩ := allSome_none ha
    cases hs : allSome (fun i => (do return (← a i, ← b i) : Option (α × β))) with
    | none => rfl
    | some v => have := allSome_eq_some.1 hs i; rw [hi] at this; cases this
  | some A =>
    have hA := allSome_eq_some.1 ha
    cases hb : allSome b with
    | none =>
      obtain ⟨i, hi⟩ := allSome_none hb
      cases hs : allSome (fun i => (do return (← a i, ← b i) : Option (α × β))) with
      | none => rfl
      | some v => have := allSome_eq_some.1 hs i; rw [hi, hA] at this; cases this
    | some B =>
      have hB := allSome_eq_some.1 hb
      have : allSome (fun i => (do return (← a i, ← b i) : Option (α × β))) = some fun i => (A i, B i) :=
        allSome_eq_some.2 fun i => by rw [hA, hB]; rfl
      rw [this]; rfl

/-- A nodal vector of `d` components. -/
theorem nodal_vec {K : Type} {d : ℕ} (hd : 0 < d) {x : List (Vec K)} (hx : ∀ v ∈ x, v.size = d) (i : ℕ) :
    x[i]? = (allSome fun k : Fin d => nodal x i k).map densev := by
  unfold nodal
  cases h : x[i]? with
  | none =>
    cases hs : allSome (fun k : Fin d => ((none : Option (Vec K)) >>= fun v => v.at? (k : ℕ))) with
    | none => rfl
    | some w => have := allSome_eq_some.1 hs ⟨0, hd⟩; cases this
  | some v =>
    obtain ⟨w, hw⟩ := exists_densev v
    have hs := hx v (List.mem_of_getElem? h)
    generalize v.size = m at *
    subst hs hw
    have : allSome (fun k : Fin m => (some (densev w) >>= fun v => v.at? (k : ℕ))) = some w :=
      allSome_eq_some.2 fun k => C01_vec_read w k
    rw [this]; rfl

theorem gather_self {K : Type} (x : List (Vec K)) (element : List ℕ) (d : ℕ) :
    gather x element element.length d = allSome fun i : Fin element.length =>
      allSome fun k : Fin d => nodal x element[i] k := by
  refine (if_pos rfl).trans ?_
  refine congrArg allSome (funext fun i => congrArg allSome (funext fun k => ?_))
  rw [List.getElem?_eq_getElem i.2]
  rfl

/-! ### Matrices of one and three rows -/

theorem jRow_eq (N : Fin n → ℝ) (v : Matrix (Fin n) (Fin 3) ℝ) (c : ℝ) {T : Type} (k : Mat ℝ → Option T) :
    ((densev N).transpose >>= fun A => A.smul c >>= fun B => B.mul (dense v) >>= k) =
      k (dense (Matrix.of fun (_ : Fin 1) j => c * ∑ i, N i * v i j)) := by
  refine bind_value (C01_vec_transpose N) (bind_value (C01_mat_smul _ c) (bind_value (C01_mat_mul _ v) ?_))
  refine congrArg (fun A => k (dense A)) ?_
  ext i j
  rw [Matrix.mul_apply, Matrix.of_apply, Finset.mul_sum]
  refine Finset.sum_congr rfl fun a _ => ?_
  simp only [Matrix.smul_apply, Matrix.of_apply, smul_eq_mul, mul_assoc]

theorem beamJS_eq (sf : SF ℝ 1 n) (X v1 v2 : Matrix (Fin n) (Fin 3) ℝ) (a b : ℝ) (r : Fin 1 → ℝ) (s : Fin 2 → ℝ) :
    beamJS (dense X) (dense v1) (dense v2) (densev (sf.N r)) (dense (sf.dNdr r)) (densev s) a b =
      some (dense (beamJ sf X v1 v2 a b r s)) := by
  refine bind_value (C01_vec_read s 0) (bind_value (C01_vec_read s 1) (bind_value (C01_mat_smul v1 _)
    (bind_value (C01_mat_add X _) (bind_value (C01_mat_smul v2 _) (bind_value (C01_mat_add _ _)
    (bind_value (C01_mat_mul _ _) ((jRow_eq _ _ _ _).trans ((jRow_eq _ _ _ _).trans (bind_value
    (C01_mat_vstack _ _) ((C01_mat_vstack _ _).trans ?_))))))))))
  refine congrArg (fun A => some (dense (r := 3) (c := 3) A)) ?_
  ext i j
  fin_cases i <;> rfl

theorem shellJS_eq (sf : SF ℝ 2 n) (X v3 : Matrix (Fin n) (Fin 3) ℝ) (t : ℝ) (r : Fin 2 → ℝ) (z : ℝ) :
    shellJS (dense X) (dense v3) (densev (sf.N r)) (dense (sf.dNdr r)) z t = some (dense (shellJ sf X v3 t r z)) := by
  refine bind_value (C01_mat_smul v3 _) (bind_value (C01_mat_add X _) (bind_value (C01_mat_mul _ _)
    ((jRow_eq _ _ _ _).trans ((C01_mat_vstack _ _).trans ?_))))
  refine congrArg (fun A => some (dense (r := 3) (c := 3) A)) ?_
  ext i j
  fin_cases i <;> rfl

theorem col_eq {r : ℕ} (M : Matrix (Fin 3) (Fin r) ℝ) (c : Fin r) :
    (dense M).block 0 (c : ℕ) 3 1 = some (dense (Matrix.of fun (i : Fin 3) (_ : Fin 1) => M i c)) := by
  have h := C01_mat_block M 0 c 3 1 (by decide) (by decide) le_rfl (by omega)
  refine h.trans (congrArg (fun A => some (dense A)) ?_)
  ext i j
  simp only [Matrix.of_apply]
  congr 1
  · exact Fin.ext (Nat.zero_add _)
  · exact Fin.ext (by show (c : ℕ) + (j : ℕ) = c; omega)

theorem layerS_eq {d : ℕ} (sf : SF ℝ d n) (G : Matrix (Fin 3) (Fin n) ℝ) (I : Matrix (Fin 3) (Fin 3) ℝ)
    (r : Fin d → ℝ) (s : ℝ) (c : Fin 3) :
    layerS (dense G) (dense I) (densev (sf.N r)) s c = some (dense (layerDNdx sf G I r s c)) := by
  refine bind_value (C01_mat_smul G s) (bind_value (col_eq I c) (bind_value (C01_vec_transpose _)
    (bind_value (C01_mat_mul _ _) ((C01_mat_add _ _).trans ?_))))
  refine congrArg (fun A => some (dense A)) ?_
  ext i j
  simp only [layerDNdx, Matrix.add_apply, Matrix.smul_apply, Matrix.mul_apply, Matrix.of_apply, smul_eq_mul,
    Finset.univ_unique, Finset.sum_singleton, mul_comm s]

theorem beamDNdxS_eq (sf : SF ℝ 1 n) (I : Matrix (Fin 3) (Fin 3) ℝ) (r : Fin 1 → ℝ) {T : Type}
    (k : Mat ℝ → Option T) :
    ((dense I).block 0 0 3 1 >>= fun A => A.mul (dense (sf.dNdr r)) >>= k) = k (dense (beamDNdx sf I r)) := by
  refine bind_value (col_eq I 0) (bind_value (C01_mat_mul _ _) ?_)
  refine congrArg (fun A => k (dense A)) ?_
  ext i j
  simp [beamDNdx, Matrix.mul_apply]

theorem shellDNdxS_eq (sf : SF ℝ 2 n) (I : Matrix (Fin 3) (Fin 3) ℝ) (r : Fin 2 → ℝ) {T : Type}
    (k : Mat ℝ → Option T) :
    ((dense I).block 0 0 3 2 >>= fun A => A.mul (dense (sf.dNdr r)) >>= k) = k (dense (shellDNdx sf I r)) := by
  have h := C01_mat_block I 0 0 3 2 (by decide) (by decide) le_rfl (by decide)
  refine bind_value h (bind_value (C01_mat_mul _ _) ?_)
  refine congrArg (fun A => k (dense A)) ?_
  ext i j
  simp only [shellDNdx, Matrix.mul_apply, Matrix.of_apply, Fin.sum_univ_two]
  fin_cases i <;> rfl

theorem firstRow_eq (J : Matrix (Fin 3) (Fin 3) ℝ) {T : Type} (k : Vec ℝ → Option T) :
    ((dense J).block 0 0 1 3 >>= fun A => A.transpose >>= fun B => Vec.ofMat B >>= k) = k (densev (J 0)) := by
  have h := C01_mat_block J 0 0 1 3 (by decide) (by decide) (by decide) le_rfl
  refine bind_value h (bind_value (C01_mat_transpose _) (bind_value (C01_vec_of_mat _) ?_))
  refine congrArg (fun v => k (densev v)) ?_
  funext i
  fin_cases i <;> rfl

theorem secondRow_eq (J : Matrix (Fin 3) (Fin 3) ℝ) {T : Type} (k : Vec ℝ → Option T) :
    ((dense J).block 1 0 1 3 >>= fun A => A.transpose >>= fun B => Vec.ofMat B >>= k) = k (densev (J 1)) := by
  have h := C01_mat_block J 1 0 1 3 (by decide) (by decide) (by decide) le_rfl
  refine bind_value h (bind_value (C01_mat_transpose _) (bind_value (C01_vec_of_mat _) ?_))
  refine congrArg (fun v => k (densev v)) ?_
  funext i
  fin_cases i <;> rfl

/-! ### Matrices filled entry by entry -/

theorem beamBS_eq (G Gy Gz : Matrix (Fin 3) (Fin n) ℝ) (v1 v2 : Matrix (Fin n) (Fin 3) ℝ) (a b : ℝ) :
    beamBS n (dense G) (dense Gy) (dense Gz) (dense v1) (dense v2) a b =
      some (dense ((beamB G Gy Gz v1 v2 a b).submatrix id finProdFinEquiv.symm)) := by
  refine nodeFillS_eq (beamB G Gy Gz v1 v2 a b) _ fun i => ?_
  exact bind_value (C01_mat_read G 0 i) (bind_value (C01_mat_read G 1 i) (bind_value (C01_mat_read G 2 i)
    (bind_value (C01_mat_read Gy 0 i) (bind_value (C01_mat_read Gy 1 i) (bind_value (C01_mat_read Gy 2 i)
    (bind_value (C01_mat_read Gz 0 i) (bind_value (C01_mat_read Gz 1 i) (bind_value (C01_mat_read Gz 2 i)
    (bind_value (C01_mat_read v1 i 0) (bind_value (C01_mat_read v1 i 1) (bind_value (C01_mat_read v1 i 2)
    (bind_value (C01_mat_read v2 i 0) (bind_value (C01_mat_read v2 i 1) (bind_value (C01_mat_read v2 i 2)
    rfl))))))))))))))

theorem shellBS_eq (G Gz : Matrix (Fin 3) (Fin n) ℝ) (v1 v2 : Matrix (Fin n) (Fin 3) ℝ) (t : ℝ) :
    shellBS n (dense G) (dense Gz) (dense v1) (dense v2) t =
      some (dense ((shellB G Gz v1 v2 t).submatrix id finProdFinEquiv.symm)) := by
  refine nodeFillS_eq (shellB G Gz v1 v2 t) _ fun i => ?_
  exact bind_value (C01_mat_read G 0 i) (bind_value (C01_mat_read G 1 i) (bind_value (C01_mat_read G 2 i)
    (bind_value (C01_mat_read Gz 0 i) (bind_value (C01_mat_read Gz 1 i) (bind_value (C01_mat_read Gz 2 i)
    (bind_value (C01_mat_read v1 i 0) (bind_value (C01_mat_read v1 i 1) (bind_value (C01_mat_read v1 i 2)
    (bind_value (C01_mat_read v2 i 0) (bind_value (C01_mat_read v2 i 1) (bind_value (C01_mat_read v2 i 2)
    rfl)))))))))))

theorem shellB2S_eq (G Gz : Matrix (Fin 3) (Fin n) ℝ) (v1 v2 : Matrix (Fin n) (Fin 3) ℝ) (t : ℝ) :
    shellB2S n (dense G) (dense Gz) (dense v1) (dense v2) t =
      some (dense ((shellB2 G Gz v1 v2 t).submatrix id finProdFinEquiv.symm)) := by
  refine nodeFillS_eq (shellB2 G Gz v1 v2 t) _ fun i => ?_
  exact bind_value (C01_mat_read G 0 i) (bind_value (C01_mat_read G 1 i) (bind_value (C01_mat_read G 2 i)
    (bind_value (C01_mat_read Gz 0 i) (bind_value (C01_mat_read Gz 1 i) (bind_value (C01_mat_read Gz 2 i)
    (bind_value (C01_mat_read v1 i 0) (bind_value (C01_mat_read v1 i 1) (bind_value (C01_mat_read v1 i 2)
    (bind_value (C01_mat_read v2 i 0) (bind_value (C01_mat_read v2 i 1) (bind_value (C01_mat_read v2 i 2)
    rfl)))))))))))

theorem beamPS_eq (P0 P1 P2 : Fin 3 → ℝ) :
    beamPS (densev P0) (densev P1) (densev P2) = some (dense (beamP P0 P1 P2)) := by
  refine bind_value (C01_vec_read P0 0) (bind_value (C01_vec_read P0 1) (bind_value (C01_vec_read P0 2)
    (bind_value (C01_vec_read P1 0) (bind_value (C01_vec_read P1 1) (bind_value (C01_vec_read P1 2)
    (bind_value (C01_vec_read P2 0) (bind_value (C01_vec_read P2 1) (bind_value (C01_vec_read P2 2) ?_))))))))
  rw [C01_mat_zeros]
  exact assigns_all (beamP P0 P1 P2) 0

theorem shellPS_eq (P0 P1 P2 : Fin 3 → ℝ) :
    shellPS (densev P0) (densev P1) (densev P2) = some (dense (shellP P0 P1 P2)) := by
  refine bind_value (C01_vec_read P0 0) (bind_value (C01_vec_read P0 1) (bind_value (C01_vec_read P0 2)
    (bind_value (C01_vec_read P1 0) (bind_value (C01_vec_read P1 1) (bind_value (C01_vec_read P1 2)
    (bind_value (C01_vec_read P2 0) (bind_value (C01_vec_read P2 1) (bind_value (C01_vec_read P2 2) ?_))))))))
  rw [C01_mat_zeros]
  exact assigns_all (shellP P0 P1 P2) 0

/-- `D0` of the beam for a given shear modulus. -/
def beamD00 (E G : ℝ) : Matrix (Fin 3) (Fin 3) ℝ :=
  Matrix.of ![![E, 0, 0], ![0, G / (6 / 5), 0], ![0, 0, G / (6 / 5)]]

theorem beamD0S_eq (E V : ℝ) : beamD0S E V = (beamD0 E V).map dense := by
  unfold beamD0S beamD0
  rw [C01_mat_zeros]
  cases div? (1 / 2 * E) (1 + V) with
  | none => rfl
  | some G => exact assigns_all (beamD00 E G) 0

/-- `D0` before it is multiplied. -/
def shellD00 (V : ℝ) : Matrix (Fin 5) (Fin 5) ℝ :=
  Matrix.of ![![1, V, 0, 0, 0], ![V, 1, 0, 0, 0], ![0, 0, 1 / 2 * (1 - V), 0, 0],
    ![0, 0, 0, 1 / 2 * (1 - V) / (6 / 5), 0], ![0, 0, 0, 0, 1 / 2 * (1 - V) / (6 / 5)]]

theorem shellD0S_eq (E V : ℝ) : shellD0S E V = (shellD0 E V).map dense := by
  unfold shellD0S shellD0
  rw [C01_mat_zeros]
  refine bind_value (assigns_all (shellD00 V) 0) ?_
  cases div? E (1 - V * V) with
  | none => rfl
  | some a => exact bind_value rfl (C01_mat_smul (K := ℝ) _ a)

theorem rotatedAddS_eq {R k : ℕ} (B : Matrix (Fin 6) (Fin n × Fin k) ℝ) (P : Matrix (Fin R) (Fin 6) ℝ)
    (D0 : Matrix (Fin R) (Fin R) ℝ) (w : List ℝ) (S : Matrix (Fin n × Fin k) (Fin n × Fin k) ℝ) :
    rotatedAddS (dense (B.submatrix id finProdFinEquiv.symm)) (dense P) (dense D0) w (flatM S) =
      some (flatM (S + w.prod • (Bᵀ * (Pᵀ * D0 * P) * B))) := by
  refine bind_value (C01_mat_transpose _) (bind_value (C01_mat_mul _ _) (bind_value (C01_mat_mul _ _)
    (bind_value (C01_mat_transpose _) (bind_value (C01_mat_mul _ _) (bind_value (C01_mat_mul _ _)
    (bind_value (scaled_dense _ _) ?_))))))
  rw [congr_flat]
  exact flatM_add _ _

/-! ### The bodies of the loops -/

theorem inverseS_eq (J : Matrix (Fin 3) (Fin 3) ℝ) : (dense J).inverse = (inv? J).map dense := by
  have hi := C03_inverse J
  unfold inv?
  by_cases h : J.det = 0
  · rw [if_pos h] at hi ⊢
    exact hi
  · rw [if_neg h] at hi ⊢
    exact hi

/-- The term of the beam (`beamStiffness`). -/
def beamTerm (sf : SF ℝ 1 n) (X v1 v2 : Matrix (Fin n) (Fin 3) ℝ) (D0 : Matrix (Fin 3) (Fin 3) ℝ) (a b : ℝ)
    (r : Fin 1 → ℝ) (s : Fin 2 → ℝ) (w0 w1 w2 : ℝ) : Option (Matrix (Fin n × Fin 6) (Fin n × Fin 6) ℝ) := do
  let J := beamJ sf X v1 v2 a b r s
  let invJ ← inv? J
  let dNdx := beamDNdx sf invJ r
  let B := beamB dNdx (layerDNdx sf dNdx invJ r (s 0) 1) (layerDNdx sf dNdx invJ r (s 1) 2) v1 v2 a b
  let P1 ← normal? fun k => ∑ i, v1 i k * sf.N r i
  let P2 ← normal? fun k => ∑ i, v2 i k * sf.N r i
  let P0 ← normal? (cross3 P1 P2)
  let D := (beamP P0 P1 P2)ᵀ * D0 * beamP P0 P1 P2
  return (J.det * w0 * w1 * w2) • (Bᵀ * D * B)

theorem beamBodyS_eq (sf : SF ℝ 1 n) (X v1 v2 : Matrix (Fin n) (Fin 3) ℝ) (D0 : Matrix (Fin 3) (Fin 3) ℝ) (a b : ℝ)
    (r : Fin 1 → ℝ) (s : Fin 2 → ℝ) (w0 w1 w2 : ℝ) (S : Matrix (Fin n × Fin 6) (Fin n × Fin 6) ℝ) :
    beamBodyS n (dense X) (dense v1) (dense v2) (dense D0) (densev (sf.N r)) (dense (sf.dNdr r)) (densev s) a b
      [w0, w1, w2] (flatM S) = (beamTerm sf X v1 v2 D0 a b r s w0 w1 w2).map fun A => flatM (S + A) := by
  unfold beamBodyS beamTerm
  refine bind_value (beamJS_eq sf X v1 v2 a b r s) (bind_value (C02_determinant _) ?_)
  refine bind_sim (g := fun A => flatM (S + A)) (inverseS_eq _) fun I => ?_
  refine ((beamDNdxS_eq sf _ r _).trans (bind_value (C01_vec_read s 0) (bind_value
    (layerS_eq sf _ _ r _ 1) (bind_value (C01_vec_read s 1) (bind_value (layerS_eq sf _ _ r _ 2)
    (bind_value (beamBS_eq _ _ _ v1 v2 a b) (bind_value (C01_mat_transpose v1) (bind_value (C01_mat_vec _ _) ?_))))))))
  refine bind_sim (g := fun A => flatM (S + A)) (normalS_eq _) fun P1 => ?_
  refine bind_value (C01_mat_transpose v2) (bind_value (C01_mat_vec _ _) ?_)
  refine bind_sim (g := fun A => flatM (S + A)) (normalS_eq _) fun P2 => ?_
  refine bind_value (crossS_eq P1 P2) ?_
  refine bind_sim (g := fun A => flatM (S + A)) (normalS_eq _) fun P0 => ?_
  refine bind_value (beamPS_eq P0 P1 P2) ((rotatedAddS_eq _ _ _ _ _).trans ?_)
  refine congrArg (fun c : ℝ => some (flatM (S + c • _))) ?_
  simp only [List.prod_cons, List.prod_nil]
  ring

/-- The term of the shell (`shellWith`). -/
def shellTerm {k : ℕ} (B : Matrix (Fin 3) (Fin n) ℝ → Matrix (Fin 3) (Fin n) ℝ →
      Matrix (Fin n) (Fin 3) ℝ → Matrix (Fin n) (Fin 3) ℝ → ℝ → Matrix (Fin 6) (Fin n × Fin k) ℝ)
    (sf : SF ℝ 2 n) (X v1 v2 v3 : Matrix (Fin n) (Fin 3) ℝ) (l : Fin 3 → ℝ) (D0 : Matrix (Fin 5) (Fin 5) ℝ) (t : ℝ)
    (r : Fin 2 → ℝ) (z w0 w1 w2 : ℝ) : Option (Matrix (Fin n × Fin k) (Fin n × Fin k) ℝ) := do
  let J := shellJ sf X v3 t r z
  let invJ ← inv? J
  let dNdx := shellDNdx sf invJ r
  let B := B dNdx (layerDNdx sf dNdx invJ r z 2) v1 v2 t
  let P2 ← normal? (cross3 (J 0) (J 1))
  let P0 ← normal? (cross3 l P2)
  let P1 ← normal? (cross3 P2 P0)
  let D := (shellP P0 P1 P2)ᵀ * D0 * shellP P0 P1 P2
  return (J.det * w0 * w1 * w2) • (Bᵀ * D * B)

theorem shellBodyS_eq {k : ℕ} {B : Matrix (Fin 3) (Fin n) ℝ → Matrix (Fin 3) (Fin n) ℝ →
      Matrix (Fin n) (Fin 3) ℝ → Matrix (Fin n) (Fin 3) ℝ → ℝ → Matrix (Fin 6) (Fin n × Fin k) ℝ}
    {build : ℕ → Mat ℝ → Mat ℝ → Mat ℝ → Mat ℝ → ℝ → Option (Mat ℝ)}
    (hB : ∀ G Gz v1 v2 t, build n (dense G) (dense Gz) (dense v1) (dense v2) t =
      some (dense ((B G Gz v1 v2 t).submatrix id finProdFinEquiv.symm)))
    (sf : SF ℝ 2 n) (X v1 v2 v3 : Matrix (Fin n) (Fin 3) ℝ) (l : Fin 3 → ℝ) (D0 : Matrix (Fin 5) (Fin 5) ℝ) (t : ℝ)
    (r : Fin 2 → ℝ) (z : Fin 1 → ℝ) (w0 w1 w2 : ℝ) (S : Matrix (Fin n × Fin k) (Fin n × Fin k) ℝ) :
    shellBodyS (fun G Gz => build n G Gz (dense v1) (dense v2) t) (dense X) (dense v3) (dense D0) (densev l)
      (densev (sf.N r)) (dense (sf.dNdr r)) (densev z) t [w0, w1, w2] (flatM S) =
      (shellTerm B sf X v1 v2 v3 l D0 t r (z 0) w0 w1 w2).map fun A => flatM (S + A) := by
  unfold shellBodyS shellTerm
  refine bind_value (C01_vec_read z 0) (bind_value (shellJS_eq sf X v3 t r _) (bind_value (C02_determinant _) ?_))
  refine bind_sim (g := fun A => flatM (S + A)) (inverseS_eq _) fun I => ?_
  refine ((shellDNdxS_eq sf _ r _).trans (bind_value
    (layerS_eq sf _ _ r _ 2) (bind_value (hB _ _ v1 v2 t) ((firstRow_eq _ _).trans ((secondRow_eq _ _).trans
    (bind_value (crossS_eq _ _) ?_))))))
  refine bind_sim (g := fun A => flatM (S + A)) (normalS_eq _) fun P2 => ?_
  refine bind_value (crossS_eq l P2) ?_
  refine bind_sim (g := fun A => flatM (S + A)) (normalS_eq _) fun P0 => ?_
  refine bind_value (crossS_eq P2 P0) ?_
  refine bind_sim (g := fun A => flatM (S + A)) (normalS_eq _) fun P1 => ?_
  refine bind_value (shellPS_eq P0 P1 P2) ((rotatedAddS_eq _ _ _ _ _).trans ?_)
  refine congrArg (fun c : ℝ => some (flatM (S + c • _))) ?_
  simp only [List.prod_cons, List.prod_nil]
  ring

/-! ### Rows of nodal vectors -/

/-- The directions at a node, normalised. -/
def unitAt (d : List (Vec ℝ)) (i : ℕ) : Option (Fin 3 → ℝ) := (allSome fun k : Fin 3 => nodal d i k) >>= normal?

theorem unitAt_eq {d : List (Vec ℝ)} (hd : ∀ v ∈ d, v.size = 3) (i : ℕ) {T : Type} (k : Vec ℝ → Option T) :
    (d[i]? >>= fun v => normalS v >>= k) = (unitAt d i >>= fun w => k (densev w)) := by
  rw [nodal_vec (by decide) hd i]
  unfold unitAt
  cases allSome fun k : Fin 3 => nodal d i k with
  | none => rfl
  | some w =>
    show (normalS (densev w) >>= k) = (normal? w >>= fun w => k (densev w))
    rw [normalS_eq]
    cases normal? w <;> rfl

theorem beamRowsS_eq {d1 d2 : List (Vec ℝ)} (h1 : ∀ v ∈ d1, v.size = 3) (h2 : ∀ v ∈ d2, v.size = 3)
    (element : List ℕ) {T : Type} (k : Mat ℝ × Mat ℝ → Option T) :
    (beamRowsS d1 d2 element >>= k) =
      (gather d1 element element.length 3 >>= fun V1 => gather d2 element element.length 3 >>= fun V2 =>
        (allSome fun i => normal? (V1 i)) >>= fun v1 => (allSome fun i => normal? (V2 i)) >>= fun v2 =>
          k (dense (Matrix.of v1), dense (Matrix.of v2))) := by
  have hz : (Mat.zeros 0 3, Mat.zeros 0 3) = ((rowsMat [], rowsMat []) : Mat ℝ × Mat ℝ) := rfl
  have hl : element = (List.finRange element.length).map fun i => element[i] := by
    rw [← List.ofFn_eq_map]; exact (List.ofFn_get element).symm
  have hr : beamRowsS d1 d2 element = (allSome fun i : Fin element.length =>
      (do return (← unitAt d1 element[i], ← unitAt d2 element[i]) : Option _)).map fun w =>
        (dense (Matrix.of fun i => (w i).1), dense (Matrix.of fun i => (w i).2)) := by
    unfold beamRowsS
    conv_lhs => rw [hl]
    rw [List.foldlM_map, hz]
    refine (append_loop (fun l : List ((Fin 3 → ℝ) × (Fin 3 → ℝ)) => (rowsMat (l.map Prod.fst), rowsMat (l.map Prod.snd)))
      (fun i : Fin element.length => (do return (← unitAt d1 element[i], ← unitAt d2 element[i]) : Option _)) _
      (fun l i => ?_)).trans ?_
    · refine (unitAt_eq h1 _ _).trans ?_
      cases unitAt d1 element[i] with
      | none => rfl
      | some w1 =>
        refine bind_value rfl (bind_value (rowS_eq _ w1) ((unitAt_eq h2 _ _).trans ?_))
        cases unitAt d2 element[i] with
        | none => rfl
        | some w2 =>
          refine bind_value rfl (bind_value (rowS_eq _ w2) ?_)
          simp
    · refine congrArg (fun f => Option.map f _) (funext fun w => ?_)
      rw [List.map_ofFn, List.map_ofFn, rowsMat_ofFn, rowsMat_ofFn]
      rfl
  rw [hr, gather_self, gather_self]
  refine Eq.trans ?_ ((allSome_pair (fun i : Fin element.length => unitAt d1 element[i])
    (fun i : Fin element.length => unitAt d2 element[i]) fun w => k (dense (Matrix.of fun i => (w i).1),
    dense (Matrix.of fun i => (w i).2))).trans ?_)
  · cases allSome fun i : Fin element.length =>
      (do return (← unitAt d1 element[i], ← unitAt d2 element[i]) : Option ((Fin 3 → ℝ) × (Fin 3 → ℝ))) <;> rfl
  · unfold unitAt
    rw [allSome_bind]
    cases allSome fun i : Fin element.length => allSome fun k : Fin 3 => nodal d1 element[i] k with
    | none => rfl
    | some V1 =>
      show ((allSome fun i => normal? (V1 i)) >>= _) = (_ >>= fun V2 => (allSome fun i => normal? (V1 i)) >>= _)
      cases (allSome fun i => normal? (V1 i)) with
      | none =>
        cases allSome fun i : Fin element.length => allSome fun k : Fin 3 => nodal d2 element[i] k <;> rfl
      | some v1 => exact allSome_bind _ _ _

theorem frameS_eq (sf : SF ℝ 2 n) (X : Matrix (Fin n) (Fin 3) ℝ) (l : Fin 3 → ℝ) (i : Fin n) :
    frameS sf (dense X) (densev l) i = (shellFrame sf X l i).map fun f => (densev f.1, densev f.2.1, densev f.2.2) := by
  unfold frameS shellFrame
  cases sf.points[(i : ℕ)]? with
  | none => rfl
  | some p =>
    have hp : ∀ {T : Type} (k : (Fin 2 → ℝ) → Option T), (some p >>= k) = k p := fun _ => rfl
    rw [hp, hp]
    refine (bind_value (C01_mat_mul _ _) (bind_value (C01_mat_transpose _) (bind_value (col_eq _ 0)
      (bind_value (C01_vec_of_mat _) (bind_value (col_eq _ 1) (bind_value (C01_vec_of_mat _)
      (bind_value (crossS_eq _ _) ?_)))))))
    refine bind_sim (g := fun f : (Fin 3 → ℝ) × (Fin 3 → ℝ) × (Fin 3 → ℝ) => (densev f.1, densev f.2.1, densev f.2.2))
      (normalS_eq _) fun v3 => ?_
    refine bind_value (crossS_eq l v3) ?_
    refine bind_sim (g := fun f : (Fin 3 → ℝ) × (Fin 3 → ℝ) × (Fin 3 → ℝ) => (densev f.1, densev f.2.1, densev f.2.2))
      (normalS_eq _) fun v1 => ?_
    refine bind_value (crossS_eq v3 v1) ?_
    exact bind_sim (g := fun f : (Fin 3 → ℝ) × (Fin 3 → ℝ) × (Fin 3 → ℝ) => (densev f.1, densev f.2.1, densev f.2.2))
      (normalS_eq _) fun v2 => rfl

theorem shellRowsS_eq (sf : SF ℝ 2 n) (X : Matrix (Fin n) (Fin 3) ℝ) (l : Fin 3 → ℝ) :
    shellRowsS sf (dense X) (densev l) n = (allSome (shellFrame sf X l)).map fun fr =>
      (dense (Matrix.of fun i => (fr i).1), dense (Matrix.of fun i => (fr i).2.1),
        dense (Matrix.of fun i => (fr i).2.2)) := by
  have hz : (Mat.zeros 0 3, Mat.zeros 0 3, Mat.zeros 0 3) =
      ((rowsMat [], rowsMat [], rowsMat []) : Mat ℝ × Mat ℝ × Mat ℝ) := rfl
  unfold shellRowsS
  rw [← List.map_coe_finRange_eq_range, List.foldlM_map, hz]
  refine (append_loop (fun l : List ((Fin 3 → ℝ) × (Fin 3 → ℝ) × (Fin 3 → ℝ)) => (rowsMat (l.map fun f => f.1),
    rowsMat (l.map fun f => f.2.1), rowsMat (l.map fun f => f.2.2))) (shellFrame sf X l) _ (fun L i => ?_)).trans ?_
  · simp only []
    rw [frameS_eq]
    cases shellFrame sf X l i with
    | none => rfl
    | some f =>
      refine bind_value rfl (bind_value (rowS_eq _ _) (bind_value (rowS_eq _ _) (bind_value (rowS_eq _ _) ?_)))
      simp
  · refine congrArg (fun f => Option.map f _) (funext fun w => ?_)
    rw [List.map_ofFn, List.map_ofFn, List.map_ofFn, rowsMat_ofFn, rowsMat_ofFn, rowsMat_ofFn]
    rfl

end Pansfem
