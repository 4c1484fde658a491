/-
C143: the truss, the beam and the two shells on `Matrix` and `Vector` objects compute what the routines of
`Verif/Model/Elastic.lean` and `Verif/Model/Shell.lean` compute.
-/
import Verif.Lemmas.ElementStorageShell
import Verif.Model.ProgramShell
import Verif.Model.ProgramBeam
import Verif.Model.ProgramDesign
import Verif.Props.C63_BeamShell
import Verif.Props.C142_NonlinearStorage

noncomputable section

namespace Pansfem

open Matrix

variable {n : ℕ}

theorem some_then {α T : Type} (a : α) (k : α → Option T) : (some a >>= k) = k a := rfl

/-- A nested pair of loops that adds its terms to an object holding `A`. -/
theorem nestedS_eq {M T : Type} [AddCommMonoid M] {N N' : ℕ} (e : M → T) (term : Fin N → Fin N' → Option M)
    (step : Fin N → T → Fin N' → Option T) (h : ∀ g S h, step g (e S) h = (term g h).map fun v => e (S + v)) (A : M) :
    (List.finRange N).foldlM (fun s g => (List.finRange N').foldlM (step g) s) (e A) =
      (gauss N fun g => gauss N' (term g)).map fun S => e (A + S) :=
  loopS_eq e _ _ (fun S g => loopS_eq e (term g) (step g) (h g) S) A

/-- **C143**: `BeamLinearIsotropicElastic` on objects, for nodal directions with three components. -/
theorem C143_beam (sf : SF ℝ 1 n) (ic0 : IC ℝ 1) (ic12 : IC ℝ 2) (element doulist : List ℕ) (x d1 d2 : List (Vec ℝ))
    (h0 : 0 < ic0.N) (h12 : 0 < ic12.N) (h1 : ∀ v ∈ d1, v.size = 3) (h2 : ∀ v ∈ d2, v.size = 3) (E V a b : ℝ) :
    beamS sf ic0 ic12 element doulist x d1 d2 E V a b = elemM 6 (fun X => do
      let V1 ← gather d1 element n 3
      let V2 ← gather d2 element n 3
      beamStiffness sf ic0 ic12 X V1 V2 E V a b) element doulist x := by
  refine head_eq (fun X => gather d1 element n 3 >>= fun V1 => gather d2 element n 3 >>= fun V2 =>
      beamStiffness sf ic0 ic12 X V1 V2 E V a b) flatM
    (fun X nte => beamRowsS d1 d2 element >>= fun v => beamD0S E V >>= fun D0 => _ >>= fun s => pure (s, nte))
    (fun he X nte => ?_) fun he X nte => ?_
  · subst he
    refine (beamRowsS_eq h1 h2 element _).trans ?_
    cases gather d1 element element.length 3 with
    | none => rfl
    | some V1 =>
    cases gather d2 element element.length 3 with
    | none => rfl
    | some V2 =>
    show ((allSome fun i => normal? (V1 i)) >>= fun v1 => (allSome fun i => normal? (V2 i)) >>= fun v2 => _) =
      (beamStiffness sf ic0 ic12 X V1 V2 E V a b).map _
    unfold beamStiffness
    cases (allSome fun i => normal? (V1 i)) with
    | none => rfl
    | some v1 =>
    cases (allSome fun i => normal? (V2 i)) with
    | none => rfl
    | some v2 =>
    rw [some_then, some_then, some_then, some_then]
    refine bind_sim (g := fun A => (flatM A, nte)) (beamD0S_eq E V) fun D0 => ?_
    rw [zeros_flatM]
    exact loop_tail (nestedS_eq flatM (fun g h => beamTerm sf X (Matrix.of v1) (Matrix.of v2) D0 a b (ic0.points g)
      (ic12.points h) (ic0.weights g 0) (ic12.weights h 0) (ic12.weights h 1)) _
      (fun g S h => beamBodyS_eq sf X (Matrix.of v1) (Matrix.of v2) D0 a b (ic0.points g) (ic12.points h) _ _ _ S) 0)
  · refine (beamRowsS_eq h1 h2 element _).trans ?_
    cases gather d1 element element.length 3 with
    | none => rfl
    | some V1 =>
    cases gather d2 element element.length 3 with
    | none => rfl
    | some V2 =>
    show ((allSome fun i => normal? (V1 i)) >>= fun v1 => (allSome fun i => normal? (V2 i)) >>= fun v2 => _) = none
    cases (allSome fun i => normal? (V1 i)) with
    | none => rfl
    | some v1 =>
    cases (allSome fun i => normal? (V2 i)) with
    | none => rfl
    | some v2 =>
    refine bind_value rfl (bind_value rfl ?_)
    rw [beamD0S_eq]
    cases beamD0 E V with
    | none => rfl
    | some D0 =>
      refine congrArg (· >>= _) (foldlM_fails (List.mem_finRange ⟨0, h0⟩) (fun s => ?_) _)
      refine foldlM_fails (List.mem_finRange ⟨0, h12⟩) (fun s => ?_) _
      unfold beamBodyS beamJS
      refine congrArg (· >>= _) (a₂ := none) ?_
      refine bind_value (C01_vec_read _ 0) (bind_value (C01_vec_read _ 1) (bind_value (C01_mat_smul _ _)
        (bind_value (C01_mat_add X _) (bind_value (C01_mat_smul _ _) (bind_value (C01_mat_add _ _) ?_)))))
      rw [mul_mismatch _ _ he.symm]
      rfl

/-- The vector from the first node to the second. -/
theorem shellL_eq {x : List (Vec ℝ)} (hx : ∀ v ∈ x, v.size = 3) {element : List ℕ}
    {X : Matrix (Fin element.length) (Fin 3) ℝ} (hX : gather x element element.length 3 = some X) {T : Type}
    (k : Vec ℝ → Option T) :
    (element[1]? >>= fun i1 => x[i1]? >>= fun v1 => element[0]? >>= fun i0 => x[i0]? >>= fun v0 => v1.sub v0 >>= k) =
      (shellL X >>= fun l => k (densev l)) := by
  rw [gather_self] at hX
  have hX := allSome_eq_some.1 hX
  have hr : ∀ i : Fin element.length, x[element[i]]? = some (densev (X i)) := fun i => by
    rw [nodal_vec (by decide) hx, hX]; rfl
  unfold shellL
  by_cases h : 1 < element.length
  · rw [dif_pos h]
    exact bind_value (List.getElem?_eq_getElem h) (bind_value (hr ⟨1, h⟩) (bind_value
      (List.getElem?_eq_getElem (by omega : 0 < element.length)) (bind_value (hr ⟨0, by omega⟩)
      (bind_value (C01_vec_sub _ _) rfl))))
  · rw [dif_neg h, List.getElem?_eq_none (by omega)]
    rfl

theorem shellWithS_eq {k : ℕ} {B : Matrix (Fin 3) (Fin n) ℝ → Matrix (Fin 3) (Fin n) ℝ →
      Matrix (Fin n) (Fin 3) ℝ → Matrix (Fin n) (Fin 3) ℝ → ℝ → Matrix (Fin 6) (Fin n × Fin k) ℝ}
    {build : ℕ → Mat ℝ → Mat ℝ → Mat ℝ → Mat ℝ → ℝ → Option (Mat ℝ)}
    (hB : ∀ G Gz v1 v2 t, build n (dense G) (dense Gz) (dense v1) (dense v2) t =
      some (dense ((B G Gz v1 v2 t).submatrix id finProdFinEquiv.symm)))
    (sf : SF ℝ 2 n) (ic01 : IC ℝ 2) (ic2 : IC ℝ 1) (element doulist : List ℕ) (x : List (Vec ℝ))
    (hx : ∀ v ∈ x, v.size = 3) (E V t : ℝ) :
    shellWithS k build sf ic01 ic2 element doulist x E V t =
      elemM k (fun X => shellWith B sf ic01 ic2 X E V t) element doulist x := by
  unfold shellWithS elemM
  rw [tableS_eq, coordsS_eq]
  cases interleaved k element.length doulist with
  | none => rfl
  | some nte =>
  by_cases he : element.length = n
  · subst he
    cases hX : gather x element element.length 3 with
    | none => rfl
    | some X =>
    refine bind_value rfl (bind_value rfl ((shellL_eq hx hX _).trans ?_))
    show _ = (shellWith B sf ic01 ic2 X E V t >>= fun A => pure (flatM A, nte))
    have hm : ∀ o : Option (Matrix (Fin element.length × Fin k) (Fin element.length × Fin k) ℝ),
        (o >>= fun A => pure (flatM A, nte)) = o.map fun A => (flatM A, nte) := fun o => by cases o <;> rfl
    rw [hm]
    unfold shellWith
    cases shellL X with
    | none => rfl
    | some l =>
    rw [some_then, some_then]
    refine bind_sim (g := fun A => (flatM A, nte)) (shellRowsS_eq sf X l) fun fr => ?_
    refine bind_sim (g := fun A => (flatM A, nte)) (shellD0S_eq E V) fun D0 => ?_
    rw [zeros_flatM]
    exact loop_tail (nestedS_eq flatM (fun g h => shellTerm B sf X (Matrix.of fun i => (fr i).1)
      (Matrix.of fun i => (fr i).2.1) (Matrix.of fun i => (fr i).2.2) l D0 t (ic01.points g) (ic2.points h 0)
      (ic01.weights g 0) (ic01.weights g 1) (ic2.weights h 0)) _
      (fun g S h => shellBodyS_eq hB sf X _ _ _ l D0 t (ic01.points g) (ic2.points h) _ _ _ S) 0)
  · have hg : gather x element n 3 = none := if_neg he
    rw [hg]
    cases hX : gather x element element.length 3 with
    | none => rfl
    | some X =>
    refine bind_value rfl (bind_value rfl ((shellL_eq hx hX _).trans ?_))
    unfold shellL
    by_cases h1 : 1 < element.length
    · rw [dif_pos h1]
      refine bind_value rfl (congrArg (· >>= _) (a₂ := none) ?_)
      unfold shellRowsS
      refine foldlM_fails (a := 0) (List.mem_range.2 (by omega)) (fun s => ?_) _
      refine congrArg (· >>= _) (a₂ := none) ?_
      unfold frameS
      cases sf.points[0]? with
      | none => rfl
      | some p =>
        refine bind_value rfl ?_
        rw [mul_mismatch _ _ (Ne.symm he)]
        rfl
    · rw [dif_neg h1]
      rfl

/-- **C143**: `ShellLinearIsotropicElastic` on objects, for nodes with three coordinates. -/
theorem C143_shell (sf : SF ℝ 2 n) (ic01 : IC ℝ 2) (ic2 : IC ℝ 1) (element doulist : List ℕ) (x : List (Vec ℝ))
    (hx : ∀ v ∈ x, v.size = 3) (E V t : ℝ) :
    shellS sf ic01 ic2 element doulist x E V t =
      elemM 5 (fun X => shellStiffness sf ic01 ic2 X E V t) element doulist x :=
  shellWithS_eq shellBS_eq sf ic01 ic2 element doulist x hx E V t

/-- **C143**: `ShellLinearIsotropicElastic2` on objects, for nodes with three coordinates. -/
theorem C143_shell2 (sf : SF ℝ 2 n) (ic01 : IC ℝ 2) (ic2 : IC ℝ 1) (element doulist : List ℕ) (x : List (Vec ℝ))
    (hx : ∀ v ∈ x, v.size = 3) (E V t : ℝ) :
    shell2S sf ic01 ic2 element doulist x E V t =
      elemM 6 (fun X => shellStiffness2 sf ic01 ic2 X E V t) element doulist x :=
  shellWithS_eq shellB2S_eq sf ic01 ic2 element doulist x hx E V t

/-- The matrix of a bar. -/
def trussK (k c s : ℝ) : Matrix (Fin 4) (Fin 4) ℝ :=
  Matrix.of ![![k * c * c, k * c * s, -k * c * c, -k * c * s],
    ![k * c * s, k * s * s, -k * c * s, -k * s * s],
    ![-k * c * c, -k * c * s, k * c * c, k * c * s],
    ![-k * c * s, -k * s * s, k * c * s, k * s * s]]

theorem truss2D_rows (vi vj : Fin 2 → ℝ) (E A : ℝ) : truss2D (Matrix.of ![vi, vj]) E A =
    (div? (vj 0 - vi 0) (Real.sqrt ((vj 0 - vi 0) ^ 2 + (vj 1 - vi 1) ^ 2)) >>= fun c =>
      div? (vj 1 - vi 1) (Real.sqrt ((vj 0 - vi 0) ^ 2 + (vj 1 - vi 1) ^ 2)) >>= fun s =>
      div? (E * A) (Real.sqrt ((vj 0 - vi 0) ^ 2 + (vj 1 - vi 1) ^ 2)) >>= fun k => pure (trussK k c s)) := rfl

/-- **C143**: `Truss2D` on objects, for nodes with two coordinates. -/
theorem C143_truss (element doulist : List ℕ) (x : List (Vec ℝ)) (hx : ∀ v ∈ x, v.size = 2) (E A : ℝ) :
    trussS element doulist x E A = (do
      let nte ← interleaved 2 element.length doulist
      let X ← gather x element 2 2
      return (dense (← truss2D X E A), nte)) := by
  unfold trussS
  by_cases he : element.length = 2
  · rw [if_pos he, tableS_eq]
    cases interleaved 2 element.length doulist with
    | none => rfl
    | some nte =>
    refine bind_value rfl ?_
    obtain ⟨i, j, rfl⟩ := List.length_eq_two.1 he
    refine bind_value (t := j) rfl ?_
    have hg : gather x [i, j] 2 2 = _ := gather_self x [i, j] 2
    rw [nodal_vec (by decide) hx j]
    cases hj : allSome fun k : Fin 2 => nodal x j k with
    | none =>
      have : gather x [i, j] 2 2 = none := by
        cases h : gather x [i, j] 2 2 with
        | none => rfl
        | some w => rw [h] at hg; exact absurd (hj.symm.trans (allSome_eq_some.1 hg.symm 1)) nofun
      rw [this]; rfl
    | some vj =>
    refine bind_value rfl (bind_value (t := i) rfl ?_)
    rw [nodal_vec (by decide) hx i]
    cases hi : allSome fun k : Fin 2 => nodal x i k with
    | none =>
      have : gather x [i, j] 2 2 = none := by
        cases h : gather x [i, j] 2 2 with
        | none => rfl
        | some w => rw [h] at hg; exact absurd (hi.symm.trans (allSome_eq_some.1 hg.symm 0)) nofun
      rw [this]; rfl
    | some vi =>
    have hX : gather x [i, j] 2 2 = some (Matrix.of ![vi, vj]) := hg.trans (allSome_eq_some.2 fun r => by
      fin_cases r
      · exact hi
      · exact hj)
    rw [hX, some_then, some_then]
    refine bind_value rfl (bind_value (C01_vec_sub vj vi) (bind_value (C01_normSq _) (bind_value (C01_vec_read _ 0) ?_)))
    rw [truss2D_rows, Fin.sum_univ_two]
    simp only [Pi.sub_apply]
    generalize Real.sqrt ((vj 0 - vi 0) ^ 2 + (vj 1 - vi 1) ^ 2) = l
    cases div? (vj 0 - vi 0) l with
    | none => rfl
    | some c =>
    rw [some_then, some_then]
    refine bind_value (C01_vec_read _ 1) ?_
    simp only [Pi.sub_apply]
    cases div? (vj 1 - vi 1) l with
    | none => rfl
    | some s =>
    rw [some_then, some_then]
    cases div? (E * A) l with
    | none => rfl
    | some k =>
    rw [some_then, C01_mat_zeros]
    exact bind_value (assigns_all (trussK k c s) 0) rfl
  · have hg : gather x element 2 2 = none := if_neg he
    rw [if_neg he, hg]
    cases interleaved 2 element.length doulist <;> rfl

theorem flatM_reindex (M : Matrix (Fin 4) (Fin 4) ℝ) :
    flatM (n := 2) (k := 2) (M.submatrix (finProdFinEquiv (m := 2) (n := 2)) (finProdFinEquiv (m := 2) (n := 2))) =
      dense M := by
  rw [flatM_dense]
  refine congrArg (dense (r := 4) (c := 4)) ?_
  ext i j
  show M (finProdFinEquiv (finProdFinEquiv.symm i)) (finProdFinEquiv (finProdFinEquiv.symm j)) = M i j
  rw [Equiv.apply_symm_apply, Equiv.apply_symm_apply]

/-- **C143**: `Truss2D` on objects is the routine the truss programs are modelled with. -/
theorem C143_truss_core (element doulist : List ℕ) (x : List (Vec ℝ)) (hx : ∀ v ∈ x, v.size = 2) (E A : ℝ) :
    trussS element doulist x E A = elemM 2 (trussCore E A) element doulist x := by
  rw [C143_truss element doulist x hx]
  unfold elemM trussCore
  cases interleaved 2 element.length doulist with
  | none => rfl
  | some nte =>
  cases gather x element 2 2 with
  | none => rfl
  | some X =>
  show (truss2D X E A >>= fun K => pure (dense K, nte)) =
    ((truss2D X E A).map (fun M => M.submatrix (finProdFinEquiv (m := 2) (n := 2))
      (finProdFinEquiv (m := 2) (n := 2))) >>= fun A => pure (flatM A, nte))
  cases truss2D X E A with
  | none => rfl
  | some K => exact congrArg (fun A => some (A, nte)) (flatM_reindex K).symm

/-! ### What the routines demand of the nodal vectors -/

/-- **C143**: a shell routine stops at its assertions when no node has exactly three coordinates, also if every
node has more: the vector along the first edge is the difference of whole vectors and `VectorProduct` asserts its
size. -/
theorem C143_shell_coordinates (k : ℕ) (build : ℕ → Mat ℝ → Mat ℝ → Mat ℝ → Mat ℝ → ℝ → Option (Mat ℝ))
    (sf : SF ℝ 2 n) (ic01 : IC ℝ 2) (ic2 : IC ℝ 1) (element doulist : List ℕ) (x : List (Vec ℝ))
    (hx : ∀ v ∈ x, v.size ≠ 3) (E V t : ℝ) : shellWithS k build sf ic01 ic2 element doulist x E V t = none := by
  unfold shellWithS
  cases tableS k element doulist with
  | none => rfl
  | some nte =>
  cases coordsS x element 3 with
  | none => rfl
  | some X =>
  rw [some_then, some_then]
  cases h1 : element[1]? with
  | none => rfl
  | some i1 =>
  rw [some_then]
  cases hv : x[i1]? with
  | none => rfl
  | some v1 =>
  rw [some_then]
  cases element[0]? with
  | none => rfl
  | some i0 =>
  rw [some_then]
  cases x[i0]? with
  | none => rfl
  | some v0 =>
  rw [some_then]
  cases hl : v1.sub v0 with
  | none => rfl
  | some l =>
  have hsz : l.size ≠ 3 := by
    have hne := hx v1 (List.mem_of_getElem? hv)
    by_cases hs : v1.size = v0.size
    · obtain ⟨w1, hw1⟩ := exists_densev v1
      obtain ⟨w0, hw0⟩ := exists_densev v0
      generalize v1.size = m at *
      generalize v0.size = m' at *
      subst hs hw1 hw0
      rw [C01_vec_sub] at hl
      rw [← Option.some.inj hl]
      simpa using hne
    · rw [((C01_vec_binary_fails v1 v0).2.1).2 hs] at hl
      cases hl
  rw [some_then]
  refine congrArg (· >>= _) (a₂ := none) ?_
  unfold shellRowsS
  have hlen : 1 < element.length := by
    by_contra hc
    rw [List.getElem?_eq_none (by omega)] at h1
    cases h1
  refine foldlM_fails (a := 0) (List.mem_range.2 (by omega)) (fun s => ?_) _
  refine congrArg (· >>= _) (a₂ := none) ?_
  unfold frameS
  have hcross : ∀ v, l.cross v = none := fun v => (C01_cross_fails l v).2 fun h => hsz h.1
  simp only [hcross]
  cases sf.points[0]? with
  | none => rfl
  | some p => simp

/-- **C143**: the beam routine stops at the assertion of `Vstack` when no direction has exactly three components. -/
theorem C143_beam_directions (sf : SF ℝ 1 n) (ic0 : IC ℝ 1) (ic12 : IC ℝ 2) (i : ℕ) (element doulist : List ℕ)
    (x d1 d2 : List (Vec ℝ)) (h1 : ∀ v ∈ d1, v.size ≠ 3) (E V a b : ℝ) :
    beamS sf ic0 ic12 (i :: element) doulist x d1 d2 E V a b = none := by
  have hr : beamRowsS d1 d2 (i :: element) = none := by
    unfold beamRowsS
    rw [List.foldlM_cons]
    refine congrArg (· >>= _) (a₂ := none) ?_
    cases hv : d1[i]? with
    | none => rfl
    | some v =>
      have hne := h1 v (List.mem_of_getElem? hv)
      rw [some_then]
      obtain ⟨w, hw⟩ := exists_densev v
      generalize v.size = m at *
      subst hw
      unfold normalS
      rw [C01_normSq, some_then]
      have hrow : ∀ u : Fin m → ℝ, rowS (Mat.zeros 0 3) (densev u) = none := fun u => by
        unfold rowS
        rw [C01_vec_transpose, some_then]
        unfold Mat.vstack
        exact if_neg fun h => hne h.symm
      by_cases h0 : Real.sqrt (∑ i, w i ^ 2) = 0
      · rw [h0]
        by_cases hm : m = 0
        · subst hm
          have : (densev w).sdiv 0 = some (densev w) := by
            unfold Vec.sdiv densev
            simp [Vec.size]
          rw [this, some_then, hrow]
          rfl
        · have : (densev w).sdiv 0 = none := by
            unfold Vec.sdiv
            simp [hm]
          rw [this]
          rfl
      · rw [C01_vec_sdiv _ _ h0, some_then, hrow]
        rfl
  unfold beamS
  rw [hr]
  cases tableS 6 (i :: element) doulist with
  | none => rfl
  | some nte =>
  cases coordsS x (i :: element) 3 with
  | none => rfl
  | some X => rfl

/-! ### Symmetry -/

theorem elemM_some {d k : ℕ} {core : Matrix (Fin n) (Fin d) ℝ → Option (Matrix (Fin n × Fin k) (Fin n × Fin k) ℝ)}
    {element doulist : List ℕ} {x : List (Vec ℝ)} {Ke : Mat ℝ} {nte : List (List (ℕ × ℕ))}
    (h : elemM k core element doulist x = some (Ke, nte)) : ∃ X A, core X = some A ∧ Ke = flatM A := by
  unfold elemM at h
  cases hi : interleaved k element.length doulist with
  | none => rw [hi] at h; cases h
  | some t =>
  cases hg : gather x element n d with
  | none => rw [hi, hg] at h; cases h
  | some X =>
  cases hc : core X with
  | none => rw [hi, hg, some_then, some_then, hc] at h; cases h
  | some A =>
    rw [hi, hg, some_then, some_then, hc] at h
    exact ⟨X, A, hc, (Prod.ext_iff.1 (Option.some.inj h)).1.symm⟩

/-- **C143**: the stiffness of a beam element in storage is symmetric. -/
theorem C143_beam_symmetric {sf : SF ℝ 1 n} {ic0 : IC ℝ 1} {ic12 : IC ℝ 2} {element doulist : List ℕ}
    {x d1 d2 : List (Vec ℝ)} (h0 : 0 < ic0.N) (h12 : 0 < ic12.N) (h1 : ∀ v ∈ d1, v.size = 3)
    (h2 : ∀ v ∈ d2, v.size = 3) {E V a b : ℝ} {Ke : Mat ℝ} {nte : List (List (ℕ × ℕ))}
    (h : beamS sf ic0 ic12 element doulist x d1 d2 E V a b = some (Ke, nte)) (i j : ℤ) : Ke.at? i j = Ke.at? j i := by
  rw [C143_beam sf ic0 ic12 element doulist x d1 d2 h0 h12 h1 h2] at h
  obtain ⟨X, A, hA, rfl⟩ := elemM_some h
  cases hV1 : gather d1 element n 3 with
  | none => rw [hV1] at hA; cases hA
  | some V1 =>
  cases hV2 : gather d2 element n 3 with
  | none => rw [hV1, hV2] at hA; cases hA
  | some V2 =>
    rw [hV1, hV2] at hA
    exact flatM_symm (C32_beam hA) i j

/-- **C143**: so is the stiffness of a shell element. -/
theorem C143_shell_symmetric {sf : SF ℝ 2 n} {ic01 : IC ℝ 2} {ic2 : IC ℝ 1} {element doulist : List ℕ}
    {x : List (Vec ℝ)} (hx : ∀ v ∈ x, v.size = 3) {E V t : ℝ} {Ke : Mat ℝ} {nte : List (List (ℕ × ℕ))}
    (h : shellS sf ic01 ic2 element doulist x E V t = some (Ke, nte)) (i j : ℤ) : Ke.at? i j = Ke.at? j i := by
  rw [C143_shell sf ic01 ic2 element doulist x hx] at h
  obtain ⟨X, A, hA, rfl⟩ := elemM_some h
  exact flatM_symm (C32_shell hA) i j

/-- **C143**: and that of the shell with six unknowns per node. -/
theorem C143_shell2_symmetric {sf : SF ℝ 2 n} {ic01 : IC ℝ 2} {ic2 : IC ℝ 1} {element doulist : List ℕ}
    {x : List (Vec ℝ)} (hx : ∀ v ∈ x, v.size = 3) {E V t : ℝ} {Ke : Mat ℝ} {nte : List (List (ℕ × ℕ))}
    (h : shell2S sf ic01 ic2 element doulist x E V t = some (Ke, nte)) (i j : ℤ) : Ke.at? i j = Ke.at? j i := by
  rw [C143_shell2 sf ic01 ic2 element doulist x hx] at h
  obtain ⟨X, A, hA, rfl⟩ := elemM_some h
  exact flatM_symm (C32_shell2 hA) i j

/-! ### The loops of the programs -/

/-- **C143**: the element loop of sample_shell_linear.cpp makes the calls of a loop over the routine on objects. -/
theorem C143_shell_calls (x : List (Vec ℝ)) (hx : ∀ v ∈ x, v.size = 3) (elements : List (List ℕ)) (E V t : ℝ) :
    matrixCalls 6 (shellCore E V t) [0, 1, 2, 3, 4, 5] x elements =
      elements.mapM fun e => shell2S SF.square4 IC.gauss1Square IC.gauss2Line e [0, 1, 2, 3, 4, 5] x E V t >>= fun s =>
        pure (.matrix s.1 s.2 e) := by
  unfold matrixCalls
  congr 1
  funext e
  rw [C143_shell2 _ _ _ e _ x hx]
  rfl

theorem gather_replicate (x : List (Vec ℝ)) (element : List ℕ) (w : Fin 3 → ℝ) {d : ℕ} (hd : 0 < d)
    {X : Matrix (Fin n) (Fin d) ℝ} (hX : gather x element n d = some X) :
    gather (List.replicate x.length (densev w)) element n 3 = some (Matrix.of fun _ => w) := by
  have hn : element.length = n := by
    by_contra h
    rw [show gather x element n d = none from if_neg h] at hX
    cases hX
  subst hn
  rw [gather_self] at hX ⊢
  refine allSome_eq_some.2 fun i => allSome_eq_some.2 fun k => ?_
  have h1 := allSome_eq_some.1 (allSome_eq_some.1 hX i) ⟨0, hd⟩
  have hlt : element[i] < x.length := by
    by_contra hc
    unfold nodal at h1
    rw [List.getElem?_eq_none (by omega)] at h1
    cases h1
  unfold nodal
  rw [List.getElem?_replicate_of_lt hlt, some_then]
  exact C01_vec_read w k

/-- **C143**: the element loop of sample_beam_linear.cpp, with the directions of sample_beam_linear.cpp:30-31 at the
nodes, makes the calls of a loop over the routine on objects. -/
theorem C143_beam_calls (x : List (Vec ℝ)) (elements : List (List ℕ)) (E V a b : ℝ) :
    matrixCalls 6 (beamCore E V a b) [0, 1, 2, 3, 4, 5] x elements =
      elements.mapM fun e => beamS SF.line2 IC.gauss1Line IC.gauss4Square e [0, 1, 2, 3, 4, 5] x
        (List.replicate x.length ⟨[0, 1, 0]⟩) (List.replicate x.length ⟨[0, 0, 1]⟩) E V a b >>= fun s =>
          pure (.matrix s.1 s.2 e) := by
  unfold matrixCalls
  congr 1
  funext e
  rw [C143_beam _ _ _ e _ x _ _ (by norm_num [IC.gauss1Line]) (by norm_num [IC.gauss4Square])
    (fun v hv => by rw [List.eq_of_mem_replicate hv]; rfl) (fun v hv => by rw [List.eq_of_mem_replicate hv]; rfl)]
  unfold elemM
  cases interleaved 6 e.length [0, 1, 2, 3, 4, 5] with
  | none => rfl
  | some nte =>
  cases hX : gather x e 2 3 with
  | none => rfl
  | some X =>
  have h1 : gather (List.replicate x.length (⟨[0, 1, 0]⟩ : Vec ℝ)) e 2 3 = some (Matrix.of fun _ => ![0, 1, 0]) :=
    gather_replicate x e ![0, 1, 0] (by decide) hX
  have h2 : gather (List.replicate x.length (⟨[0, 0, 1]⟩ : Vec ℝ)) e 2 3 = some (Matrix.of fun _ => ![0, 0, 1]) :=
    gather_replicate x e ![0, 0, 1] (by decide) hX
  rw [h1, h2]
  rfl

/-! ### Cases -/

/-- Two coordinates per node: the bar from (0, 0) to (3, 4). -/
example : trussS [0, 1] [0, 1] [⟨[0, 0]⟩, ⟨[3, 4]⟩] 10 2 =
    some (dense (trussK 4 (3 / 5) (4 / 5)), [[(0, 0), (1, 1)], [(0, 2), (1, 3)]]) := by
  rw [C143_truss _ _ _ (by simp [Vec.size])]
  have hX : gather [(⟨[0, 0]⟩ : Vec ℝ), ⟨[3, 4]⟩] [0, 1] 2 2 = some (Matrix.of ![![0, 0], ![3, 4]]) := by
    refine (if_pos rfl).trans ?_
    refine allSome_eq_some.2 fun i => allSome_eq_some.2 fun k => ?_
    fin_cases i <;> fin_cases k <;> rfl
  refine bind_value rfl (bind_value hX ?_)
  have h5 : Real.sqrt ((3 - 0) ^ 2 + (4 - 0) ^ 2) = 5 := by
    rw [show ((3 : ℝ) - 0) ^ 2 + (4 - 0) ^ 2 = 5 ^ 2 by norm_num]
    exact Real.sqrt_sq (by norm_num)
  have hd : ∀ a : ℝ, div? a 5 = some (a / 5) := fun a => if_neg (by norm_num)
  have ht : truss2D (Matrix.of ![![0, 0], ![3, 4]]) 10 2 = some (trussK 4 (3 / 5) (4 / 5)) := by
    rw [truss2D_rows]
    show (div? (3 - 0) (Real.sqrt ((3 - 0) ^ 2 + (4 - 0) ^ 2)) >>= fun c =>
      div? (4 - 0) (Real.sqrt ((3 - 0) ^ 2 + (4 - 0) ^ 2)) >>= fun s =>
      div? (10 * 2) (Real.sqrt ((3 - 0) ^ 2 + (4 - 0) ^ 2)) >>= fun k => pure (trussK k c s)) = _
    rw [h5, hd, hd, hd]
    refine congrArg some ?_
    show trussK (10 * 2 / 5) ((3 - 0) / 5) ((4 - 0) / 5) = _
    norm_num
  exact bind_value ht rfl

/-- The beam of `Verif/Props/C63_BeamShell.lean` has a symmetric stiffness in storage. -/
example : ∃ Ke nte, beamS SF.line2 (midRule 1) (midRule 2) [0, 1] [0, 1, 2, 3, 4, 5] [⟨[0, 0, 0]⟩, ⟨[2, 0, 0]⟩]
    [⟨[0, 1, 0]⟩, ⟨[0, 1, 0]⟩] [⟨[0, 0, 1]⟩, ⟨[0, 0, 1]⟩] 2.1 0.3 2 4 = some (Ke, nte) ∧ Ke.at? 2 7 = Ke.at? 7 2 := by
  obtain ⟨K, hK⟩ := exBeam
  have hg : ∀ a b c d e f : ℝ, gather [(⟨[a, b, c]⟩ : Vec ℝ), ⟨[d, e, f]⟩] [0, 1] 2 3 = some !![a, b, c; d, e, f] := by
    intro a b c d e f
    refine (if_pos rfl).trans ?_
    refine allSome_eq_some.2 fun i => allSome_eq_some.2 fun k => ?_
    fin_cases i <;> fin_cases k <;> rfl
  have h := C143_beam SF.line2 (midRule 1) (midRule 2) [0, 1] [0, 1, 2, 3, 4, 5] [⟨[0, 0, 0]⟩, ⟨[2, 0, 0]⟩]
    [⟨[0, 1, 0]⟩, ⟨[0, 1, 0]⟩] [⟨[0, 0, 1]⟩, ⟨[0, 0, 1]⟩] (by norm_num [midRule]) (by norm_num [midRule])
    (by simp [Vec.size]) (by simp [Vec.size]) 2.1 0.3 2 4
  have h' := h.trans (bind_value rfl (bind_value (hg _ _ _ _ _ _) (bind_value
    (bind_value (hg _ _ _ _ _ _) (bind_value (hg _ _ _ _ _ _) hK)) rfl)))
  exact ⟨_, _, h', C143_beam_symmetric (by norm_num [midRule]) (by norm_num [midRule])
    (by simp [Vec.size]) (by simp [Vec.size]) h' 2 7⟩

/-- So has the shell there. -/
example : ∃ Ke nte, shell2S SF.square4 (midRule 2) (midRule 1) [0, 1, 2, 3] [0, 1, 2, 3, 4, 5]
    [⟨[-1, -1, 0]⟩, ⟨[1, -1, 0]⟩, ⟨[1, 1, 0]⟩, ⟨[-1, 1, 0]⟩] 1 0.3 2 = some (Ke, nte) ∧ Ke.at? 3 20 = Ke.at? 20 3 := by
  obtain ⟨K, hK⟩ := exShell shellB2
  have hg : gather [(⟨[-1, -1, 0]⟩ : Vec ℝ), ⟨[1, -1, 0]⟩, ⟨[1, 1, 0]⟩, ⟨[-1, 1, 0]⟩] [0, 1, 2, 3] 4 3 =
      some !![-1, -1, 0; 1, -1, 0; 1, 1, 0; -1, 1, 0] := by
    refine (if_pos rfl).trans ?_
    refine allSome_eq_some.2 fun i => allSome_eq_some.2 fun k => ?_
    fin_cases i <;> fin_cases k <;> rfl
  have hx : ∀ v ∈ [(⟨[-1, -1, 0]⟩ : Vec ℝ), ⟨[1, -1, 0]⟩, ⟨[1, 1, 0]⟩, ⟨[-1, 1, 0]⟩], v.size = 3 := by simp [Vec.size]
  have h := (C143_shell2 SF.square4 (midRule 2) (midRule 1) [0, 1, 2, 3] [0, 1, 2, 3, 4, 5] _ hx 1 0.3 2).trans
    (bind_value rfl (bind_value hg (bind_value hK rfl)))
  exact ⟨_, _, h, C143_shell2_symmetric hx h 3 20⟩

/-- Nodes with a fourth number stop the shell routine. -/
example : shellS SF.square4 (midRule 2) (midRule 1) [0, 1, 2, 3] [0, 1, 2, 3, 4]
    [⟨[-1, -1, 0, 0]⟩, ⟨[1, -1, 0, 0]⟩, ⟨[1, 1, 0, 0]⟩, ⟨[-1, 1, 0, 0]⟩] 1 0.3 2 = none :=
  C143_shell_coordinates _ _ _ _ _ _ _ _ (by simp [Vec.size]) _ _ _

/-- Directions with two components stop the beam routine. -/
example : beamS SF.line2 (midRule 1) (midRule 2) [0, 1] [0, 1, 2, 3, 4, 5] [⟨[0, 0, 0]⟩, ⟨[2, 0, 0]⟩]
    [⟨[0, 1]⟩, ⟨[0, 1]⟩] [⟨[0, 0, 1]⟩, ⟨[0, 0, 1]⟩] 2.1 0.3 2 4 = none :=
  C143_beam_directions _ _ _ _ _ _ _ _ _ (by simp [Vec.size]) _ _ _ _

end Pansfem
