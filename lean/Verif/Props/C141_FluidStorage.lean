/-
C141: the routines of Stokes.h and NavierStokes.h on objects of the classes `Matrix` and `Vector`, statement
by statement, are the routines of `Verif/Model/Fluid.lean` laid out in storage.

The routines take the number of velocity nodes from `_elementu`, and not from the shape functions.  Those
without nodal velocities run on a list with fewer nodes than shape functions: they use the first shape
functions.  On a longer list they read outside of the matrix of derivatives.
-/
import Verif.Lemmas.ElementStorageFluid

noncomputable section

namespace Pansfem

open Matrix

set_option linter.unusedSimpArgs false

variable {K : Type} [Field K] {m n : ℕ}

/-- The four entries of two velocity nodes (src/FEM/Equation/Stokes.h:60-63). -/
abbrev quadE (i j : Fin m) : List (Flu m n × Flu m n) :=
  [(.inl (.inl i), .inl (.inl j)), (.inl (.inl i), .inl (.inr j)),
    (.inl (.inr i), .inl (.inl j)), (.inl (.inr i), .inl (.inr j))]

/-- The entries of two velocity nodes of equal components (src/FEM/Equation/NavierStokes.h:198-199). -/
abbrev diagE (i j : Fin m) : List (Flu m n × Flu m n) :=
  [(.inl (.inl i), .inl (.inl j)), (.inl (.inr i), .inl (.inr j))]

/-- The four entries of a velocity node and a pressure node (src/FEM/Equation/Stokes.h:66-69). -/
abbrev coupleE (i : Fin m) (j : Fin n) : List (Flu m n × Flu m n) :=
  [(.inl (.inl i), .inr j), (.inl (.inr i), .inr j), (.inr j, .inl (.inl i)), (.inr j, .inl (.inr i))]

/-- The entries in the row of a pressure node (src/FEM/Equation/NavierStokes.h:323-324). -/
abbrev rowE (i : Fin m) (j : Fin n) : List (Flu m n × Flu m n) :=
  [(.inr j, .inl (.inl i)), (.inr j, .inl (.inr i))]

set_option hygiene false in
/-- Every entry that is not zero is assigned. -/
local macro "cover" : tactic => `(tactic| (
  rintro ((i | i) | i) ((j | j) | j) h <;>
  first
  | exact absurd rfl h
  | exact Or.inl ⟨i, j, by simp⟩
  | exact Or.inr ⟨i, j, by simp⟩
  | exact Or.inr ⟨j, i, by simp⟩
  | exact Or.inl ⟨j, i, by simp⟩))

section Mixed
variable [DecidableEq K] (sfu : SF K 2 m) (sfp : SF K 2 n) (ic : IC K 2) (eu ep doulist : List ℕ)
  (x : List (Vec K))

/-- **C141**: `StokesStiffness` on a list of at most as many velocity nodes as shape functions. -/
theorem C141_stokesStiffness_first (hN : 0 < ic.N) (hk : eu.length ≤ m) (mu : K) :
    stokesStiffnessS sfu sfp ic eu ep doulist x mu = gather x eu eu.length 2 >>= fun _ =>
      mixElemM (fun X => stokesStiffness (sfu.first eu.length hk) sfp ic X mu) (eu, ep) doulist x := by
  have h := mix_head (eu := eu) (ep := ep) (doulist := doulist) (x := x) rfl
    (L := fun Xp => fluLoopS sfu sfp ic (fun _ dMdX N _ => stokesKS eu ep mu dMdX N) Xp
      (Mat.zeros (2 * eu.length + ep.length) (2 * eu.length + ep.length)))
    (core := fun X => stokesStiffness (sfu.first eu.length hk) sfp ic X mu) (fun hn X => ?_)
    (fun hn X => fluLoopS_mismatch sfu sfp ic hN hn X _ _)
  · rw [← h]
    refine (opt_comm _ _ _).trans ?_
    rw [coordsS_eq x eu 2]
    cases gather x eu eu.length 2 <;> rfl
  · subst hn
    refine fluLoopS_eq sfu sfp ic hk X fun r I => ?_
    rw [Option.map_some, mixM_laid]
    refine fillS_eq (fluE _ _) (fluE _ _) _ quadE coupleE
      (fun i j => ?_) (fun i j => ?_) (by cover)
    · refine bind_value (read_dM0 sfu hk I r i) (bind_value (read_dM1 sfu hk I r i) (bind_value (read_dM0 sfu hk I r j) (bind_value (read_dM1 sfu hk I r j) ?_)))
      simp only [List.map_cons, List.map_nil, fluE_u, fluE_v, fluE_p]
      rfl
    · refine bind_value (read_dM0 sfu hk I r i) (bind_value (read_dM1 sfu hk I r i) (bind_value (C01_vec_read (sfp.N r) j) ?_))
      simp only [List.map_cons, List.map_nil, fluE_u, fluE_v, fluE_p]
      rfl

/-- **C141**: `StokesStiffness`. -/
theorem C141_stokesStiffness (hN : 0 < ic.N) (hk : eu.length = m) (mu : K) :
    stokesStiffnessS sfu sfp ic eu ep doulist x mu = gather x eu m 2 >>= fun _ =>
      mixElemM (fun X => stokesStiffness sfu sfp ic X mu) (eu, ep) doulist x := by
  subst hk
  exact C141_stokesStiffness_first sfu sfp ic eu ep doulist x hN le_rfl mu

/-- **C141**: `StokesStiffness` fails on a list of more velocity nodes than shape functions. -/
theorem C141_stokesStiffness_long (hN : 0 < ic.N) (hk : m < eu.length) (mu : K) :
    stokesStiffnessS sfu sfp ic eu ep doulist x mu = none := by
  have h := mix_none (eu := eu) (ep := ep) (doulist := doulist) (x := x)
    (L := fun Xp => fluLoopS sfu sfp ic (fun _ dMdX N _ => stokesKS eu ep mu dMdX N) Xp
      (Mat.zeros (2 * eu.length + ep.length) (2 * eu.length + ep.length))) (fun X =>
      fluLoopS_none sfu sfp ic hN X _ _ fun r I => fillS_none m m hk hk (by rw [read_past_col]; rfl))
  refine (opt_comm _ _ _).trans ?_
  cases coordsS x eu 2 with
  | none => rfl
  | some X => exact h

omit [DecidableEq K] in
/-- **C141**: `StokesMass` on a list of at most as many velocity nodes as shape functions. -/
theorem C141_stokesMass_first (hN : 0 < ic.N) (hk : eu.length ≤ m) (rho : K) :
    stokesMassS sfu sfp ic eu ep doulist x rho = gather x eu eu.length 2 >>= fun _ =>
      mixElemM (fun X => stokesMass (sfu.first eu.length hk) sfp ic X rho) (eu, ep) doulist x := by
  have h := mix_head (eu := eu) (ep := ep) (doulist := doulist) (x := x) rfl
    (L := fun Xp => fluLoopJS sfu sfp ic (stokesCS eu ep rho) Xp
      (Mat.zeros (2 * eu.length + ep.length) (2 * eu.length + ep.length)))
    (core := fun X => stokesMass (sfu.first eu.length hk) sfp ic X rho) (fun hn X => ?_)
    (fun hn X => fluLoopJS_mismatch sfu sfp ic hN hn X _ _)
  · rw [← h]
    refine (opt_comm _ _ _).trans ?_
    rw [coordsS_eq x eu 2]
    cases gather x eu eu.length 2 <;> rfl
  · subst hn
    refine fluLoopJS_eq sfu sfp ic X fun r => ?_
    rw [mixM_laid]
    refine fillS_eq (fluE _ _) (fluE _ _) _ quadE (fun _ _ => [])
      (fun i j => ?_) (fun i j => ?_) (by cover)
    · refine bind_value (read_N sfu hk r i) (bind_value (read_N sfu hk r j) ?_)
      simp only [List.map_cons, List.map_nil, fluE_u, fluE_v, fluE_p]
      rfl
    · exact j.elim0

omit [DecidableEq K] in
/-- **C141**: `StokesMass`. -/
theorem C141_stokesMass (hN : 0 < ic.N) (hk : eu.length = m) (rho : K) :
    stokesMassS sfu sfp ic eu ep doulist x rho = gather x eu m 2 >>= fun _ =>
      mixElemM (fun X => stokesMass sfu sfp ic X rho) (eu, ep) doulist x := by
  subst hk
  exact C141_stokesMass_first sfu sfp ic eu ep doulist x hN le_rfl rho

omit [DecidableEq K] in
/-- **C141**: `StokesMass` fails on a list of more velocity nodes than shape functions. -/
theorem C141_stokesMass_long (hN : 0 < ic.N) (hk : m < eu.length) (rho : K) :
    stokesMassS sfu sfp ic eu ep doulist x rho = none := by
  have h := mix_none (eu := eu) (ep := ep) (doulist := doulist) (x := x)
    (L := fun Xp => fluLoopJS sfu sfp ic (stokesCS eu ep rho) Xp
      (Mat.zeros (2 * eu.length + ep.length) (2 * eu.length + ep.length))) (fun X =>
      fluLoopJS_none sfu sfp ic hN X _ _ fun r => fillS_none m m hk hk (by rw [read_past]; rfl))
  refine (opt_comm _ _ _).trans ?_
  cases coordsS x eu 2 with
  | none => rfl
  | some X => exact h

omit [DecidableEq K] in
/-- **C141**: `NavierStokesConsistentMass` on a list of at most as many velocity nodes as shape functions. -/
theorem C141_consistentMass_first (hN : 0 < ic.N) (hk : eu.length ≤ m) (rho : K) :
    nsConsistentMassS sfu sfp ic eu ep doulist x rho = mixElemM (fun X => stokesMass (sfu.first eu.length hk) sfp ic X rho) (eu, ep) doulist x := by
  have h := mix_head (eu := eu) (ep := ep) (doulist := doulist) (x := x) rfl
    (L := fun Xp => fluLoopJS sfu sfp ic (nsMS eu ep rho) Xp
      (Mat.zeros (2 * eu.length + ep.length) (2 * eu.length + ep.length)))
    (core := fun X => stokesMass (sfu.first eu.length hk) sfp ic X rho) (fun hn X => ?_)
    (fun hn X => fluLoopJS_mismatch sfu sfp ic hN hn X _ _)
  · exact h
  · subst hn
    refine fluLoopJS_eq sfu sfp ic X fun r => ?_
    rw [mixM_laid]
    refine fillS_eq (fluE _ _) (fluE _ _) _ diagE (fun _ _ => [])
      (fun i j => ?_) (fun i j => ?_) (by cover)
    · refine bind_value (read_N sfu hk r i) (bind_value (read_N sfu hk r j) ?_)
      simp only [List.map_cons, List.map_nil, fluE_u, fluE_v, fluE_p]
      rfl
    · exact j.elim0

omit [DecidableEq K] in
/-- **C141**: `NavierStokesConsistentMass`. -/
theorem C141_consistentMass (hN : 0 < ic.N) (hk : eu.length = m) (rho : K) :
    nsConsistentMassS sfu sfp ic eu ep doulist x rho = mixElemM (fun X => stokesMass sfu sfp ic X rho) (eu, ep) doulist x := by
  subst hk
  exact C141_consistentMass_first sfu sfp ic eu ep doulist x hN le_rfl rho

omit [DecidableEq K] in
/-- **C141**: `NavierStokesConsistentMass` fails on a list of more velocity nodes than shape functions. -/
theorem C141_consistentMass_long (hN : 0 < ic.N) (hk : m < eu.length) (rho : K) :
    nsConsistentMassS sfu sfp ic eu ep doulist x rho = none := by
  have h := mix_none (eu := eu) (ep := ep) (doulist := doulist) (x := x)
    (L := fun Xp => fluLoopJS sfu sfp ic (nsMS eu ep rho) Xp
      (Mat.zeros (2 * eu.length + ep.length) (2 * eu.length + ep.length))) (fun X =>
      fluLoopJS_none sfu sfp ic hN X _ _ fun r => fillS_none m m hk hk (by rw [read_past]; rfl))
  exact h

omit [DecidableEq K] in
/-- **C141**: `BrinkmanBodyForce` and `NavierStokesBrinkmanBodyForce` on a list of at most as many velocity nodes as shape functions. -/
theorem C141_brinkman_first (hN : 0 < ic.N) (hk : eu.length ≤ m) (k : Matrix (Fin 2) (Fin 2) K) :
    brinkmanS sfu sfp ic eu ep doulist x (dense k) = mixElemM (fun X => brinkman (sfu.first eu.length hk) sfp ic X k) (eu, ep) doulist x := by
  have h := mix_head (eu := eu) (ep := ep) (doulist := doulist) (x := x) rfl
    (L := fun Xp => fluLoopJS sfu sfp ic (brinkmanKS eu ep (dense k)) Xp
      (Mat.zeros (2 * eu.length + ep.length) (2 * eu.length + ep.length)))
    (core := fun X => brinkman (sfu.first eu.length hk) sfp ic X k) (fun hn X => ?_)
    (fun hn X => fluLoopJS_mismatch sfu sfp ic hN hn X _ _)
  · exact h
  · subst hn
    refine fluLoopJS_eq sfu sfp ic X fun r => ?_
    rw [mixM_laid]
    refine fillS_eq (fluE _ _) (fluE _ _) _ quadE (fun _ _ => [])
      (fun i j => ?_) (fun i j => ?_) (by cover)
    · refine bind_value (read_N sfu hk r i) (bind_value (read_N sfu hk r j) (bind_value (C01_mat_read k 0 0) (bind_value (C01_mat_read k 0 1) (bind_value (C01_mat_read k 1 0) (bind_value (C01_mat_read k 1 1) ?_)))))
      simp only [List.map_cons, List.map_nil, fluE_u, fluE_v, fluE_p]
      rfl
    · exact j.elim0

omit [DecidableEq K] in
/-- **C141**: `BrinkmanBodyForce` and `NavierStokesBrinkmanBodyForce`. -/
theorem C141_brinkman (hN : 0 < ic.N) (hk : eu.length = m) (k : Matrix (Fin 2) (Fin 2) K) :
    brinkmanS sfu sfp ic eu ep doulist x (dense k) = mixElemM (fun X => brinkman sfu sfp ic X k) (eu, ep) doulist x := by
  subst hk
  exact C141_brinkman_first sfu sfp ic eu ep doulist x hN le_rfl k

omit [DecidableEq K] in
/-- **C141**: `BrinkmanBodyForce` and `NavierStokesBrinkmanBodyForce` fails on a list of more velocity nodes than shape functions. -/
theorem C141_brinkman_long (hN : 0 < ic.N) (hk : m < eu.length) (k : Matrix (Fin 2) (Fin 2) K) :
    brinkmanS sfu sfp ic eu ep doulist x (dense k) = none := by
  have h := mix_none (eu := eu) (ep := ep) (doulist := doulist) (x := x)
    (L := fun Xp => fluLoopJS sfu sfp ic (brinkmanKS eu ep (dense k)) Xp
      (Mat.zeros (2 * eu.length + ep.length) (2 * eu.length + ep.length))) (fun X =>
      fluLoopJS_none sfu sfp ic hN X _ _ fun r => fillS_none m m hk hk (by rw [read_past]; rfl))
  exact h

/-- **C141**: `ContinuityStiffness` on a list of at most as many velocity nodes as shape functions. -/
theorem C141_continuity_first (hN : 0 < ic.N) (hk : eu.length ≤ m) :
    continuityS sfu sfp ic eu ep doulist x = mixElemM (fun X => continuity (sfu.first eu.length hk) sfp ic X) (eu, ep) doulist x := by
  have h := mix_head (eu := eu) (ep := ep) (doulist := doulist) (x := x) rfl
    (L := fun Xp => fluLoopS sfu sfp ic (fun _ dMdX N _ => continuityCS eu ep dMdX N) Xp
      (Mat.zeros (2 * eu.length + ep.length) (2 * eu.length + ep.length)))
    (core := fun X => continuity (sfu.first eu.length hk) sfp ic X) (fun hn X => ?_)
    (fun hn X => fluLoopS_mismatch sfu sfp ic hN hn X _ _)
  · exact h
  · subst hn
    refine fluLoopS_eq sfu sfp ic hk X fun r I => ?_
    rw [Option.map_some, mixM_laid]
    refine fillS_eq (fluE _ _) (fluE _ _) _ (fun _ _ => []) coupleE
      (fun i j => ?_) (fun i j => ?_) (by cover)
    · exact j.elim0
    · refine bind_value (read_dM0 sfu hk I r i) (bind_value (read_dM1 sfu hk I r i) (bind_value (C01_vec_read (sfp.N r) j) ?_))
      simp only [List.map_cons, List.map_nil, fluE_u, fluE_v, fluE_p]
      rfl

/-- **C141**: `ContinuityStiffness`. -/
theorem C141_continuity (hN : 0 < ic.N) (hk : eu.length = m) :
    continuityS sfu sfp ic eu ep doulist x = mixElemM (fun X => continuity sfu sfp ic X) (eu, ep) doulist x := by
  subst hk
  exact C141_continuity_first sfu sfp ic eu ep doulist x hN le_rfl

/-- **C141**: `ContinuityStiffness` fails on a list of more velocity nodes than shape functions. -/
theorem C141_continuity_long (hN : 0 < ic.N) (hk : m < eu.length) (hn : 0 < ep.length) :
    continuityS sfu sfp ic eu ep doulist x = none := by
  have h := mix_none (eu := eu) (ep := ep) (doulist := doulist) (x := x)
    (L := fun Xp => fluLoopS sfu sfp ic (fun _ dMdX N _ => continuityCS eu ep dMdX N) Xp
      (Mat.zeros (2 * eu.length + ep.length) (2 * eu.length + ep.length))) (fun X =>
      fluLoopS_none sfu sfp ic hN X _ _ fun r I => fillS_none' m 0 hk hn (by rw [read_past_col]; rfl))
  exact h

omit [DecidableEq K] in
/-- The matrix of `NavierStokesStiffness` at an integration point. -/
theorem C141_stiffness_point (hn : ep.length = n) (hm : eu.length = m) (rho mu : K) (U : Matrix (Fin m) (Fin 2) K)
    (r : Fin 2 → K) (I : Matrix (Fin 2) (Fin 2) K) :
    nsStiffnessKS eu ep rho mu (dense U) (densev (sfu.N r)) (dense (I * sfu.dNdr r)) =
      some (mixM (n := n) (fluM
        (fun i j => rho * (sfu.N r i * (I * sfu.dNdr r) 0 j * (Uᵀ *ᵥ sfu.N r) 0
            + sfu.N r i * (I * sfu.dNdr r) 1 j * (Uᵀ *ᵥ sfu.N r) 1)
          + mu * (2 * (I * sfu.dNdr r) 0 i * (I * sfu.dNdr r) 0 j + (I * sfu.dNdr r) 1 i * (I * sfu.dNdr r) 1 j))
        (fun i j => mu * (I * sfu.dNdr r) 1 i * (I * sfu.dNdr r) 0 j)
        (fun i j => mu * (I * sfu.dNdr r) 0 i * (I * sfu.dNdr r) 1 j)
        (fun i j => rho * (sfu.N r i * (I * sfu.dNdr r) 1 j * (Uᵀ *ᵥ sfu.N r) 1
            + sfu.N r i * (I * sfu.dNdr r) 0 j * (Uᵀ *ᵥ sfu.N r) 0)
          + mu * ((I * sfu.dNdr r) 0 i * (I * sfu.dNdr r) 0 j + 2 * (I * sfu.dNdr r) 1 i * (I * sfu.dNdr r) 1 j))
        (fun _ _ => 0) (fun _ _ => 0) (fun _ _ => 0) (fun _ _ => 0) (fun _ _ => 0))) := by
  subst hm hn
  unfold nsStiffnessKS
  refine bind_value (C01_mat_transpose _) (bind_value (C01_mat_vec _ _) (bind_value (C01_vec_read _ (0 : Fin 2))
    (bind_value (C01_vec_read _ (1 : Fin 2)) ?_)))
  rw [mixM_laid]
  refine fillS_eq (fluE _ _) (fluE _ _) _ quadE (fun _ _ => [])
    (fun i j => ?_) (fun i j => ?_) (by cover)
  · refine bind_value (read_N sfu le_rfl r i) (bind_value (read_dM0 sfu le_rfl I r i) (bind_value (read_dM1 sfu le_rfl I r i) (bind_value (read_dM0 sfu le_rfl I r j) (bind_value (read_dM1 sfu le_rfl I r j) ?_))))
    simp only [List.map_cons, List.map_nil, fluE_u, fluE_v, fluE_p]
    rfl
  · exact j.elim0

/-- **C141**: `NavierStokesStiffness`; the velocity nodes have to be as many as the shape functions. -/
theorem C141_nsStiffness (hN : 0 < ic.N) (ubar : List (Vec K)) (rho mu : K) :
    nsStiffnessS sfu sfp ic eu ep doulist x ubar rho mu = gather ubar eu m 2 >>= fun U =>
      mixElemM (fun X => nsStiffness sfu sfp ic X U rho mu) (eu, ep) doulist x := by
  refine (opt_third _ _ _ _).trans ?_
  rw [coordsS_eq ubar eu 2]
  by_cases hk : eu.length = m
  · subst hk
    cases gather ubar eu eu.length 2 with
    | none => rfl
    | some U =>
      refine mix_head rfl (L := fun Xp => fluLoopS sfu sfp ic (fun M dMdX _ _ => nsStiffnessKS eu ep rho mu (dense U) M dMdX) Xp
          (Mat.zeros (2 * eu.length + ep.length) (2 * eu.length + ep.length))) (fun hn X => ?_)
        (fun hn X => fluLoopS_mismatch sfu sfp ic hN hn X _ _)
      subst hn
      exact fluLoopS_eq sfu sfp ic le_rfl X fun r I => C141_stiffness_point sfu eu ep rfl rfl rho mu U r I
  · rw [show gather ubar eu m 2 = none from if_neg hk]
    cases gather ubar eu eu.length 2 with
    | none => rfl
    | some U =>
      refine mix_none (L := fun Xp => fluLoopS sfu sfp ic (fun M dMdX _ _ => nsStiffnessKS eu ep rho mu (dense U) M dMdX) Xp
          (Mat.zeros (2 * eu.length + ep.length) (2 * eu.length + ep.length))) fun X =>
        fluLoopS_none sfu sfp ic hN X _ _ fun r I => ?_
      refine bind_value (C01_mat_transpose _) ?_
      rw [mulVec_mismatch _ _ hk]
      rfl

omit [DecidableEq K] in
/-- The matrix of `NavierStokesAdjoint` at an integration point. -/
theorem C141_adjoint_point (hn : ep.length = n) (hm : eu.length = m) (rho mu : K) (U : Matrix (Fin m) (Fin 2) K)
    (r : Fin 2 → K) (I : Matrix (Fin 2) (Fin 2) K) :
    nsAdjointKS eu ep rho mu (dense U) (densev (sfu.N r)) (dense (I * sfu.dNdr r)) (densev (sfp.N r)) =
      some (mixM (let M := sfu.N r; let dM := I * sfu.dNdr r; let N := sfp.N r
        let V := Uᵀ *ᵥ M
        let dU := dM * U
        fluM
        (fun i j => rho * (M i * M j * dU 0 0 + dM 0 i * V 0 * M j + dM 1 i * V 1 * M j)
          + mu * (2 * dM 0 i * dM 0 j + dM 1 i * dM 1 j))
        (fun i j => rho * M i * M j * dU 0 1 + mu * dM 1 i * dM 0 j)
        (fun i j => rho * M i * M j * dU 1 0 + mu * dM 0 i * dM 1 j)
        (fun i j => rho * (dM 0 i * V 0 * M j + M i * M j * dU 1 1 + dM 1 i * V 1 * M j)
          + mu * (dM 0 i * dM 0 j + 2 * dM 1 i * dM 1 j))
        (fun i j => -dM 0 i * N j) (fun i j => -dM 1 i * N j) (fun j i => N j * dM 0 i) (fun j i => N j * dM 1 i)
        (fun _ _ => 0))) := by
  subst hm hn
  unfold nsAdjointKS
  refine bind_value (C01_mat_transpose _) (bind_value (C01_mat_vec _ _) (bind_value (C01_mat_mul _ _)
    (bind_value (C01_vec_read _ (0 : Fin 2))
    (bind_value (C01_vec_read _ (1 : Fin 2)) (bind_value (C01_mat_read _ (0 : Fin 2) (0 : Fin 2))
    (bind_value (C01_mat_read _ (0 : Fin 2) (1 : Fin 2)) (bind_value (C01_mat_read _ (1 : Fin 2) (0 : Fin 2))
    (bind_value (C01_mat_read _ (1 : Fin 2) (1 : Fin 2)) ?_))))))))
  rw [mixM_laid]
  refine fillS_eq (fluE _ _) (fluE _ _) _ quadE coupleE
    (fun i j => ?_) (fun i j => ?_) (by cover)
  · refine bind_value (read_N sfu le_rfl r i) (bind_value (read_N sfu le_rfl r j) (bind_value (read_dM0 sfu le_rfl I r i) (bind_value (read_dM1 sfu le_rfl I r i) (bind_value (read_dM0 sfu le_rfl I r j) (bind_value (read_dM1 sfu le_rfl I r j) ?_)))))
    simp only [List.map_cons, List.map_nil, fluE_u, fluE_v, fluE_p]
    rfl
  · refine bind_value (read_dM0 sfu le_rfl I r i) (bind_value (read_dM1 sfu le_rfl I r i) (bind_value (C01_vec_read (sfp.N r) j) ?_))
    simp only [List.map_cons, List.map_nil, fluE_u, fluE_v, fluE_p]
    rfl

omit [DecidableEq K] in
/-- The matrix of `NavierStokesTangent` at an integration point. -/
theorem C141_tangent_point (hn : ep.length = n) (hm : eu.length = m) (rho mu : K) (U : Matrix (Fin m) (Fin 2) K)
    (r : Fin 2 → K) (I : Matrix (Fin 2) (Fin 2) K) :
    nsTangentKS eu ep rho mu (dense U) (densev (sfu.N r)) (dense (I * sfu.dNdr r)) (densev (sfp.N r)) =
      some (mixM (nsTangentK rho mu (Uᵀ *ᵥ sfu.N r) (I * sfu.dNdr r * U) (sfu.N r) (I * sfu.dNdr r) (sfp.N r))) := by
  subst hm hn
  unfold nsTangentKS
  refine bind_value (C01_mat_transpose _) (bind_value (C01_mat_vec _ _) (bind_value (C01_mat_mul _ _)
    (bind_value (C01_vec_read _ (0 : Fin 2))
    (bind_value (C01_vec_read _ (1 : Fin 2)) (bind_value (C01_mat_read _ (0 : Fin 2) (0 : Fin 2))
    (bind_value (C01_mat_read _ (0 : Fin 2) (1 : Fin 2)) (bind_value (C01_mat_read _ (1 : Fin 2) (0 : Fin 2))
    (bind_value (C01_mat_read _ (1 : Fin 2) (1 : Fin 2)) ?_))))))))
  rw [mixM_laid]
  refine fillS_eq (fluE _ _) (fluE _ _) _ quadE coupleE
    (fun i j => ?_) (fun i j => ?_) (by cover)
  · refine bind_value (read_N sfu le_rfl r i) (bind_value (read_N sfu le_rfl r j) (bind_value (read_dM0 sfu le_rfl I r i) (bind_value (read_dM1 sfu le_rfl I r i) (bind_value (read_dM0 sfu le_rfl I r j) (bind_value (read_dM1 sfu le_rfl I r j) ?_)))))
    simp only [List.map_cons, List.map_nil, fluE_u, fluE_v, fluE_p]
    rfl
  · refine bind_value (read_dM0 sfu le_rfl I r i) (bind_value (read_dM1 sfu le_rfl I r i) (bind_value (C01_vec_read (sfp.N r) j) ?_))
    simp only [List.map_cons, List.map_nil, fluE_u, fluE_v, fluE_p]
    rfl

omit [DecidableEq K] in
/-- The vector of `NavierStokesTangent` at an integration point. -/
theorem C141_force_point (hn : ep.length = n) (hm : eu.length = m) (rho mu : K) (U : Matrix (Fin m) (Fin 2) K)
    (p : Fin n → K) (r : Fin 2 → K) (I : Matrix (Fin 2) (Fin 2) K) :
    nsTangentFS eu ep rho mu (dense U) (densev p) (densev (sfu.N r)) (dense (I * sfu.dNdr r)) (densev (sfp.N r)) =
      some (mixV (nsTangentF rho mu (Uᵀ *ᵥ sfu.N r) (I * sfu.dNdr r * U) (p ⬝ᵥ sfp.N r) (sfu.N r)
        (I * sfu.dNdr r) (sfp.N r))) := by
  subst hm hn
  unfold nsTangentFS
  refine bind_value (C01_mat_transpose _) (bind_value (C01_mat_vec _ _) (bind_value (C01_mat_mul _ _)
    (bind_value (C01_vec_dot _ _) (bind_value (C01_vec_read _ (0 : Fin 2))
    (bind_value (C01_vec_read _ (1 : Fin 2)) (bind_value (C01_mat_read _ (0 : Fin 2) (0 : Fin 2))
    (bind_value (C01_mat_read _ (0 : Fin 2) (1 : Fin 2)) (bind_value (C01_mat_read _ (1 : Fin 2) (0 : Fin 2))
    (bind_value (C01_mat_read _ (1 : Fin 2) (1 : Fin 2)) ?_)))))))))
  rw [mixV_laid]
  refine fillVS_eq (fluE _ _) _ (fun i => [.inl (.inl i), .inl (.inr i)]) (fun j => [.inr j])
    (fun i => ?_) (fun j => ?_) ?_
  · refine bind_value (read_N sfu le_rfl r i) (bind_value (read_dM0 sfu le_rfl I r i)
      (bind_value (read_dM1 sfu le_rfl I r i) ?_))
    simp only [List.map_cons, List.map_nil, fluE_u, fluE_v]
    rfl
  · refine bind_value (C01_vec_read (sfp.N r) j) ?_
    simp only [List.map_cons, List.map_nil, fluE_p]
    rfl
  · rintro ((i | i) | i) _
    · exact Or.inl ⟨i, by simp⟩
    · exact Or.inl ⟨i, by simp⟩
    · exact Or.inr ⟨i, by simp⟩

/-- **C141**: `NavierStokesAdjoint`; the velocity nodes have to be as many as the shape functions. -/
theorem C141_nsAdjoint (hN : 0 < ic.N) (up : List (Vec K)) (rho mu : K) :
    nsAdjointS sfu sfp ic eu ep doulist x up rho mu = gather x eu m 2 >>= fun _ => gather up eu m 2 >>= fun U =>
      column up ep n 2 >>= fun _ =>
      mixElemM (fun X => nsAdjoint sfu sfp ic X U rho mu) (eu, ep) doulist x := by
  refine (opt_five _ _ _ _ _ _).trans ?_
  rw [coordsS_eq x eu 2, coordsS_eq up eu 2, componentS_eq]
  by_cases hk : eu.length = m
  · subst hk
    cases gather x eu eu.length 2 with
    | none => rfl
    | some Xu =>
    cases gather up eu eu.length 2 with
    | none => rfl
    | some U =>
    by_cases hn : ep.length = n
    · subst hn
      cases column up ep ep.length 2 with
      | none => rfl
      | some p =>
        refine mix_head rfl (L := fun Xp => fluLoopS sfu sfp ic
          (fun M dMdX N _ => nsAdjointKS eu ep rho mu (dense U) M dMdX N) Xp
          (Mat.zeros (2 * eu.length + ep.length) (2 * eu.length + ep.length))) (fun hn X => ?_)
          (fun hn X => absurd rfl hn)
        exact fluLoopS_eq sfu sfp ic le_rfl X fun r I => C141_adjoint_point sfu sfp eu ep rfl rfl rho mu U r I
    · rw [show column up ep n 2 = none from if_neg hn]
      cases column up ep ep.length 2 with
      | none => rfl
      | some p =>
        exact mix_none (L := fun Xp => fluLoopS sfu sfp ic
          (fun M dMdX N _ => nsAdjointKS eu ep rho mu (dense U) M dMdX N) Xp
          (Mat.zeros (2 * eu.length + ep.length) (2 * eu.length + ep.length))) fun X =>
          fluLoopS_mismatch sfu sfp ic hN hn X _ _
  · rw [show gather x eu m 2 = none from if_neg hk]
    cases gather x eu eu.length 2 with
    | none => rfl
    | some Xu =>
    cases gather up eu eu.length 2 with
    | none => rfl
    | some U =>
    cases column up ep ep.length 2 with
    | none => rfl
    | some p =>
      refine mix_none (L := fun Xp => fluLoopS sfu sfp ic
          (fun M dMdX N _ => nsAdjointKS eu ep rho mu (dense U) M dMdX N) Xp
          (Mat.zeros (2 * eu.length + ep.length) (2 * eu.length + ep.length))) fun X =>
        fluLoopS_none sfu sfp ic hN X _ _ fun r I => ?_
      refine bind_value (C01_mat_transpose _) ?_
      rw [mulVec_mismatch _ _ hk]
      rfl

/-- **C141**: `NavierStokesTangent`: the matrix and, with the sign of `-=`, the vector. -/
theorem C141_nsTangent (hN : 0 < ic.N) (up : List (Vec K)) (rho mu : K) :
    nsTangentS sfu sfp ic eu ep doulist x up rho mu = gather x eu m 2 >>= fun _ => gather up eu m 2 >>= fun U =>
      column up ep n 2 >>= fun p => blocked eu.length ep.length doulist >>= fun t => gather x ep n 2 >>= fun X =>
      (nsTangent sfu sfp ic X U rho mu >>= fun A => nsTangentForce sfu sfp ic X U p rho mu >>= fun F =>
        pure (A, F)) >>= fun s => pure ((mixM s.1, mixV s.2), t.1, t.2) := by
  refine (opt_five _ _ _ _ _ _).trans ?_
  rw [coordsS_eq x eu 2, coordsS_eq up eu 2, componentS_eq]
  by_cases hk : eu.length = m
  · subst hk
    cases gather x eu eu.length 2 with
    | none => rfl
    | some Xu =>
    cases gather up eu eu.length 2 with
    | none => rfl
    | some U =>
    by_cases hn : ep.length = n
    · subst hn
      cases column up ep ep.length 2 with
      | none => rfl
      | some p =>
        refine mix_headG (fun s : Matrix (Flu eu.length ep.length) (Flu eu.length ep.length) K ×
          (Flu eu.length ep.length → K) => (mixM s.1, mixV s.2)) (fun hn X => ?_) (fun hn X => absurd rfl hn)
        refine Eq.trans ?_ (congrArg _ (gauss_prod _ _))
        rw [zeros_mixM, zeros_mixV]
        refine loopS_zero (fun s : Matrix (Flu eu.length ep.length) (Flu eu.length ep.length) K ×
          (Flu eu.length ep.length → K) => (mixM s.1, mixV s.2)) _ _ fun S g => ?_
        simp only []
        rw [fluPointS_eq]
        cases inv? (jac sfp X (ic.points g)) with
        | none => rfl
        | some I =>
          simp only [Option.map_some, Option.bind_eq_bind, Option.bind_some]
          rw [C141_tangent_point sfu sfp eu ep rfl rfl rho mu U (ic.points g) I,
            C141_force_point sfu sfp eu ep rfl rfl rho mu U p (ic.points g) I]
          have h1 := mixM_step S.1 (nsTangentK rho mu (Uᵀ *ᵥ sfu.N (ic.points g)) (I * sfu.dNdr (ic.points g) * U)
            (sfu.N (ic.points g)) (I * sfu.dNdr (ic.points g)) (sfp.N (ic.points g)))
            [(jac sfp X (ic.points g)).det, ic.weights g 0, ic.weights g 1]
          have h2 := mixV_stepSub S.2 (nsTangentF rho mu (Uᵀ *ᵥ sfu.N (ic.points g))
            (I * sfu.dNdr (ic.points g) * U) (p ⬝ᵥ sfp.N (ic.points g)) (sfu.N (ic.points g))
            (I * sfu.dNdr (ic.points g)) (sfp.N (ic.points g)))
            [(jac sfp X (ic.points g)).det, ic.weights g 0, ic.weights g 1]
          have hp : [(jac sfp X (ic.points g)).det, ic.weights g 0, ic.weights g 1].prod =
              (jac sfp X (ic.points g)).det * ic.weights g 0 * ic.weights g 1 := by
            simp only [List.prod_cons, List.prod_nil]; ring
          rw [hp] at h1 h2
          simp only [Option.bind_eq_bind] at h1 h2
          simp only [Option.bind_some]
          rw [← Option.bind_assoc, h1, Option.bind_some, ← Option.bind_assoc, h2]
          rfl
    · rw [show column up ep n 2 = none from if_neg hn]
      cases column up ep ep.length 2 with
      | none => rfl
      | some p =>
        refine mix_none fun X => foldlM_fails (List.mem_finRange ⟨0, hN⟩) (fun s => ?_) _
        unfold fluPointS
        simp only []
        rw [mul_mismatch _ _ (Ne.symm hn)]
        rfl
  · rw [show gather x eu m 2 = none from if_neg hk]
    cases gather x eu eu.length 2 with
    | none => rfl
    | some Xu =>
    cases gather up eu eu.length 2 with
    | none => rfl
    | some U =>
    cases column up ep ep.length 2 with
    | none => rfl
    | some p =>
      refine mix_none fun X => foldlM_fails (List.mem_finRange ⟨0, hN⟩) (fun s => ?_) _
      simp only []
      cases fluPointS sfu sfp (dense X) (ic.points ⟨0, hN⟩) with
      | none => rfl
      | some q =>
        have : nsTangentKS eu ep rho mu (dense U) (densev (sfu.N (ic.points ⟨0, hN⟩))) q.2.2
            (densev (sfp.N (ic.points ⟨0, hN⟩))) = none := by
          refine bind_value (C01_mat_transpose _) ?_
          rw [mulVec_mismatch _ _ hk]
          rfl
        refine bind_value rfl ?_
        rw [this]
        rfl

omit [DecidableEq K] in
/-- **C141**: `StokesBodyForce` and `NavierStokesBodyForce` on a list of at most as many velocity nodes as
shape functions. -/
theorem C141_bodyForce_first (hN : 0 < ic.N) (hk : eu.length ≤ m) {f : Vec K → Vec K}
    {f' : (Fin 2 → K) → Fin 2 → K} (hf : ∀ v, f (densev v) = densev (f' v)) :
    stokesBodyForceS sfu sfp ic eu ep doulist x f =
      blocked eu.length ep.length doulist >>= fun t => gather x ep n 2 >>= fun X =>
      stokesBodyForce (sfu.first eu.length hk) sfp ic X f' >>= fun F => pure (mixV F, t.1, t.2) := by
  refine mix_headG mixV (fun hn X => ?_) fun hn X => ?_
  · subst hn
    rw [zeros_mixV]
    refine loopS_zero mixV _ _ fun S g => ?_
    refine bind_value (C01_mat_mul _ _) (bind_value (C02_determinant _) (bind_value (C01_mat_transpose _)
      (bind_value (C01_mat_vec _ _) ?_)))
    rw [hf]
    refine bind_value (t := mixV (m := eu.length) (n := ep.length) (fluV
      (fun i => f' (Xᵀ *ᵥ sfp.N (ic.points g)) 0 * (sfu.first eu.length hk).N (ic.points g) i)
      (fun i => f' (Xᵀ *ᵥ sfp.N (ic.points g)) 1 * (sfu.first eu.length hk).N (ic.points g) i) fun _ => 0)) ?_ ?_
    · rw [mixV_laid]
      refine fillVS_eq (fluE _ _) _ (fun i => [.inl (.inl i), .inl (.inr i)]) (fun _ => [])
        (fun i => ?_) (fun j => j.elim0) ?_
      · refine bind_value (read_N sfu hk (ic.points g) i) (bind_value (C01_vec_read _ (0 : Fin 2))
          (bind_value (C01_vec_read _ (1 : Fin 2)) ?_))
        simp only [List.map_cons, List.map_nil, fluE_u, fluE_v]
        rfl
      · rintro ((i | i) | i) h
        · exact Or.inl ⟨i, by simp⟩
        · exact Or.inl ⟨i, by simp⟩
        · exact absurd rfl h
    · refine (mixV_step S _ _).trans ?_
      refine congrArg (fun c : K => some (mixV (S + c • _))) ?_
      simp only [List.prod_cons, List.prod_nil, jac]
      ring
  · refine foldlM_fails (List.mem_finRange ⟨0, hN⟩) (fun s => ?_) _
    rw [mul_mismatch _ _ (Ne.symm hn)]
    rfl

omit [DecidableEq K] in
/-- **C141**: `StokesBodyForce` and `NavierStokesBodyForce`. -/
theorem C141_bodyForce (hN : 0 < ic.N) (hk : eu.length = m) {f : Vec K → Vec K}
    {f' : (Fin 2 → K) → Fin 2 → K} (hf : ∀ v, f (densev v) = densev (f' v)) :
    stokesBodyForceS sfu sfp ic eu ep doulist x f =
      blocked eu.length ep.length doulist >>= fun t => gather x ep n 2 >>= fun X =>
      stokesBodyForce sfu sfp ic X f' >>= fun F => pure (mixV F, t.1, t.2) := by
  subst hk
  exact C141_bodyForce_first sfu sfp ic eu ep doulist x hN le_rfl hf

omit [DecidableEq K] in
/-- **C141**: the body force fails on a list of more velocity nodes than shape functions. -/
theorem C141_bodyForce_long (hN : 0 < ic.N) (hk : m < eu.length) (f : Vec K → Vec K) :
    stokesBodyForceS sfu sfp ic eu ep doulist x f = none := by
  refine mix_none fun X => foldlM_fails (List.mem_finRange ⟨0, hN⟩) (fun s => ?_) _
  by_cases hn : ep.length = n
  · subst hn
    refine bind_value (C01_mat_mul _ _) (bind_value (C02_determinant _) (bind_value (C01_mat_transpose _)
      (bind_value (C01_mat_vec _ _) ?_)))
    simp only []
    rw [fillVS_none m hk (by rw [read_past]; rfl)]
    rfl
  · rw [mul_mismatch _ _ (Ne.symm hn)]
    rfl

end Mixed

section Surface
variable (sfu : SF ℝ 1 m) (sfp : SF ℝ 1 n) (ic : IC ℝ 1) (eu ep doulist : List ℕ) (x : List (Vec ℝ))

/-- The matrix `B` of `StokesSurfaceForce`. -/
theorem C141_surface_point (hk : eu.length ≤ m) (r : Fin 1 → ℝ) :
    stokesBS eu.length n (densev (sfu.N r)) = some (dense ((Matrix.of fun a s => match s with
      | .inl (.inl i) => if a = 0 then (sfu.first eu.length hk).N r i else 0
      | .inl (.inr i) => if a = 0 then 0 else (sfu.first eu.length hk).N r i
      | .inr _ => 0 : Matrix (Fin 2) (Flu eu.length n) ℝ).submatrix id (fluE _ _).symm)) := by
  set B : Matrix (Fin 2) (Flu eu.length n) ℝ := Matrix.of fun a s => match s with
      | .inl (.inl i) => if a = 0 then (sfu.first eu.length hk).N r i else 0
      | .inl (.inr i) => if a = 0 then 0 else (sfu.first eu.length hk).N r i
      | .inr _ => 0 with hB
  unfold stokesBS
  set F : Fin 2 × Flu eu.length n → ℕ × ℕ × ℝ := fun s => ((s.1 : ℕ), (fluE _ _ s.2 : ℕ), B s.1 s.2) with hF
  set L : Fin eu.length → List (Fin 2 × Flu eu.length n) := fun i =>
    [(0, .inl (.inl i)), (0, .inl (.inr i)), (1, .inl (.inl i)), (1, .inl (.inr i))] with hL
  rw [loop_flat putsS (fun _ => rfl) putsS_append (fun i => (L i).map F) _ (fun s i => ?_), ← List.map_flatMap]
  · refine puts_target (Equiv.refl (Fin 2)) (fluE _ _) B _ ?_
    rintro a ((i | i) | i) h
    · refine List.mem_flatMap.2 ⟨i, List.mem_finRange i, ?_⟩
      fin_cases a <;> simp [hL]
    · refine List.mem_flatMap.2 ⟨i, List.mem_finRange i, ?_⟩
      fin_cases a <;> simp [hL]
    · exact absurd rfl h
  · refine bind_value (read_N sfu hk r i) ?_
    simp only [hL, hF, List.map_cons, List.map_nil, fluE_u, fluE_v]
    rfl

/-- **C141**: `StokesSurfaceForce` on a list of at most as many velocity nodes as shape functions. -/
theorem C141_surfaceForce_first (hN : 0 < ic.N) (hk : eu.length ≤ m) {f : Vec ℝ → Vec ℝ}
    {f' : (Fin 2 → ℝ) → Fin 2 → ℝ} (hf : ∀ v, f (densev v) = densev (f' v)) :
    stokesSurfaceForceS sfu sfp ic eu ep doulist x f =
      mixElemV (fun X => stokesSurfaceForce (sfu.first eu.length hk) sfp ic X f') (eu, ep) doulist x := by
  have h := mix_headG (eu := eu) (ep := ep) (doulist := doulist) (x := x) mixV
    (core := fun X => stokesSurfaceForce (sfu.first eu.length hk) sfp ic X f')
    (L := fun Xp => (List.finRange ic.N).foldlM (fun Fe g => do
      let xg ← (← Xp.transpose).mulVec (densev (sfp.N (ic.points g)))
      let dXdr ← (dense (sfp.dNdr (ic.points g))).mul Xp
      let dl := Real.sqrt (← (← dXdr.mul (← dXdr.transpose)).at? 0 0)
      let B ← stokesBS eu.length ep.length (densev (sfu.N (ic.points g)))
      Fe.add (← scaledV (← (← B.transpose).mulVec (f xg)) [dl, ic.weights g 0]))
      (Vec.zeros (2 * eu.length + ep.length))) (fun hn X => ?_) fun hn X => ?_
  · unfold stokesSurfaceForceS mixElemV
    have h' := congrArg (fun o => gather x eu eu.length 2 >>= fun _ => o) h
    refine Eq.trans ?_ (h'.trans ?_)
    · refine (opt_comm _ _ _).trans ?_
      rw [coordsS_eq x eu 2]
      cases gather x eu eu.length 2 <;> rfl
    · exact opt_comm _ _ _
  · subst hn
    rw [zeros_mixV]
    refine loopS_zero mixV _ _ fun S g => ?_
    refine bind_value (C01_mat_transpose _) (bind_value (C01_mat_vec _ _) (bind_value (C01_mat_mul _ _)
      (bind_value (C01_mat_transpose _) (bind_value (C01_mat_mul _ _)
        (bind_value (C01_mat_read _ (0 : Fin 1) (0 : Fin 1))
        (bind_value (C141_surface_point sfu eu hk _) (bind_value (C01_mat_transpose _) ?_)))))))
    rw [hf]
    refine bind_value (t := mixV (m := eu.length) (n := ep.length) (fluV
      (fun i => (sfu.first eu.length hk).N (ic.points g) i * f' (Xᵀ *ᵥ sfp.N (ic.points g)) 0)
      (fun i => (sfu.first eu.length hk).N (ic.points g) i * f' (Xᵀ *ᵥ sfp.N (ic.points g)) 1) fun _ => 0)) ?_ ?_
    · rw [C01_mat_vec, mixV_laid]
      congr 2
      funext c
      obtain ⟨s, rfl⟩ := (fluE eu.length ep.length).surjective c
      rcases s with (i | i) | i <;>
        simp [Matrix.mulVec, dotProduct, Fin.sum_univ_two, fluV]
    · refine (mixV_step S _ _).trans ?_
      refine congrArg (fun c : ℝ => some (mixV (S + c • _))) ?_
      simp only [List.prod_cons, List.prod_nil, lineElement]
      ring
  · refine foldlM_fails (List.mem_finRange ⟨0, hN⟩) (fun s => ?_) _
    refine bind_value (C01_mat_transpose _) ?_
    rw [mulVec_mismatch _ _ hn]
    rfl

/-- **C141**: `StokesSurfaceForce`. -/
theorem C141_surfaceForce (hN : 0 < ic.N) (hk : eu.length = m) {f : Vec ℝ → Vec ℝ}
    {f' : (Fin 2 → ℝ) → Fin 2 → ℝ} (hf : ∀ v, f (densev v) = densev (f' v)) :
    stokesSurfaceForceS sfu sfp ic eu ep doulist x f =
      mixElemV (fun X => stokesSurfaceForce sfu sfp ic X f') (eu, ep) doulist x := by
  subst hk
  exact C141_surfaceForce_first sfu sfp ic eu ep doulist x hN le_rfl hf

end Surface

section SUPG
variable (sfu : SF ℝ 2 m) (sfp : SF ℝ 2 n) (ic : IC ℝ 2) (eu ep doulist : List ℕ) (x : List (Vec ℝ))

/-- **C141**: the frame of the three SUPG routines, for any matrix of the integration points. -/
theorem C141_supg (hN : 0 < ic.N) {build : Vec ℝ → Vec ℝ → Mat ℝ → Mat ℝ → Option (Mat ℝ)}
    {f : (Fin 2 → ℝ) → (Fin m → ℝ) → Matrix (Fin 2) (Fin m) ℝ → Matrix (Fin 2) (Fin n) ℝ →
      Matrix (Flu m n) (Flu m n) ℝ}
    (hb : eu.length = m → ep.length = n → ∀ U r (I : Matrix (Fin 2) (Fin 2) ℝ),
      build (densev U) (densev (sfu.N r)) (dense (I * sfu.dNdr r)) (dense (I * sfp.dNdr r)) =
        some (mixM (f U (sfu.N r) (I * sfu.dNdr r) (I * sfp.dNdr r))))
    (ubar : List (Vec ℝ)) (rho mu dt : ℝ) :
    supgS sfu sfp ic eu ep doulist x build ubar rho mu dt = gather ubar eu m 2 >>= fun U =>
      mixElemM (fun X => loopF sfu sfp ic X fun M dM _ dN =>
        supgTau (Uᵀ *ᵥ M) dM (area sfp ic X) rho mu dt >>= fun tau => pure (tau • f (Uᵀ *ᵥ M) M dM dN))
        (eu, ep) doulist x := by
  refine (opt_third _ _ _ _).trans ?_
  rw [coordsS_eq ubar eu 2]
  by_cases hk : eu.length = m
  · subst hk
    cases gather ubar eu eu.length 2 with
    | none => rfl
    | some U =>
      have h := mix_head (eu := eu) (ep := ep) (doulist := doulist) (x := x) rfl
        (L := fun Xp => areaS sfp ic Xp >>= fun ar => fluLoopS sfu sfp ic (fun M dMdX _ dNdX => do
          let Ubar ← (← (dense U).transpose).mulVec M
          let tau ← supgTauS eu Ubar dMdX ar rho mu dt
          (← build Ubar M dMdX dNdX).smul tau) Xp
          (Mat.zeros (2 * eu.length + ep.length) (2 * eu.length + ep.length)))
        (core := fun X => loopF sfu sfp ic X fun M dM _ dN =>
          supgTau (Uᵀ *ᵥ M) dM (area sfp ic X) rho mu dt >>= fun tau => pure (tau • f (Uᵀ *ᵥ M) M dM dN))
        (fun hn X => ?_) (fun hn X => ?_)
      · refine Eq.trans ?_ h
        refine congrArg (mixTablesS eu.length ep.length doulist >>= ·) (funext fun t => ?_)
        cases coordsS x ep 2 with
        | none => rfl
        | some Xp =>
          show _ = ((areaS sfp ic Xp >>= _) >>= _)
          rw [bind_assoc]
          rfl
      · subst hn
        refine bind_value (areaLoop_eq sfp ic X) ?_
        refine fluLoopS_eq sfu sfp ic le_rfl X fun r I => ?_
        refine bind_value (C01_mat_transpose _) (bind_value (C01_mat_vec _ _) ?_)
        rw [supgTauS_eq rfl]
        show _ = (supgTau (Uᵀ *ᵥ sfu.N r) (I * sfu.dNdr r) (area sfp ic X) rho mu dt >>= _).map mixM
        cases supgTau (Uᵀ *ᵥ sfu.N r) (I * sfu.dNdr r) (area sfp ic X) rho mu dt with
        | none => rfl
        | some tau => exact bind_value rfl (bind_value (hb rfl rfl _ r I) (mixM_smul _ _))
      · refine congrArg (· >>= _) (a₂ := none) ?_
        refine foldlM_fails (List.mem_finRange ⟨0, hN⟩) (fun s => ?_) _
        rw [mul_mismatch _ _ (Ne.symm hn)]
        rfl
  · rw [show gather ubar eu m 2 = none from if_neg hk]
    cases gather ubar eu eu.length 2 with
    | none => rfl
    | some U =>
      have h := mix_none (eu := eu) (ep := ep) (doulist := doulist) (x := x)
        (L := fun Xp => areaS sfp ic Xp >>= fun ar => fluLoopS sfu sfp ic (fun M dMdX _ dNdX => do
          let Ubar ← (← (dense U).transpose).mulVec M
          let tau ← supgTauS eu Ubar dMdX ar rho mu dt
          (← build Ubar M dMdX dNdX).smul tau) Xp
          (Mat.zeros (2 * eu.length + ep.length) (2 * eu.length + ep.length))) (fun X => ?_)
      · refine Eq.trans ?_ h
        refine congrArg (mixTablesS eu.length ep.length doulist >>= ·) (funext fun t => ?_)
        cases coordsS x ep 2 with
        | none => rfl
        | some Xp =>
          show _ = ((areaS sfp ic Xp >>= _) >>= _)
          rw [bind_assoc]
          rfl
      · cases areaS sfp ic (dense X) with
        | none => rfl
        | some ar =>
          refine bind_value rfl (fluLoopS_none sfu sfp ic hN X _ _ fun r I => ?_)
          refine bind_value (C01_mat_transpose _) ?_
          rw [mulVec_mismatch _ _ hk]
          rfl

/-- **C141**: `NavierStokesSUPGPSPGStiffness`. -/
theorem C141_supgStiffness (hN : 0 < ic.N) (ubar : List (Vec ℝ)) (rho mu dt : ℝ) :
    supgS sfu sfp ic eu ep doulist x (fun Ubar _ dMdX dNdX => supgStiffnessKS eu ep rho Ubar dMdX dNdX) ubar rho mu dt = gather ubar eu m 2 >>= fun U =>
      mixElemM (fun X => supgStiffness sfu sfp ic X U rho mu dt) (eu, ep) doulist x := by
  refine C141_supg sfu sfp ic eu ep doulist x hN (f := fun U M dM dN => fluM
      (fun i j => rho * (U 0 * U 0 * dM 0 i * dM 0 j + U 1 * U 0 * dM 1 i * dM 0 j
        + U 0 * U 1 * dM 0 i * dM 1 j + U 1 * U 1 * dM 1 i * dM 1 j))
      (fun _ _ => 0) (fun _ _ => 0)
      (fun i j => rho * (U 0 * U 0 * dM 0 i * dM 0 j + U 1 * U 0 * dM 1 i * dM 0 j
        + U 0 * U 1 * dM 0 i * dM 1 j + U 1 * U 1 * dM 1 i * dM 1 j))
      (fun _ _ => 0) (fun _ _ => 0)
      (fun j i => rho * (U 0 * dN 0 j * dM 0 i + U 1 * dN 0 j * dM 1 i))
      (fun j i => rho * (U 0 * dN 1 j * dM 0 i + U 1 * dN 1 j * dM 1 i))
      (fun _ _ => 0))
    (fun hm hn U r I => ?_) ubar rho mu dt
  subst hm hn
  refine bind_value (C01_vec_read U (0 : Fin 2)) (bind_value (C01_vec_read U (1 : Fin 2)) ?_)
  rw [mixM_laid]
  refine fillS_eq (fluE _ _) (fluE _ _) _ diagE rowE
    (fun i j => ?_) (fun i j => ?_) (by cover)
  · refine bind_value (read_dM0 sfu le_rfl I r i) (bind_value (read_dM1 sfu le_rfl I r i) (bind_value (read_dM0 sfu le_rfl I r j) (bind_value (read_dM1 sfu le_rfl I r j) ?_)))
    simp only [List.map_cons, List.map_nil, fluE_u, fluE_v, fluE_p]
    rfl
  · refine bind_value (read_dM0 sfu le_rfl I r i) (bind_value (read_dM1 sfu le_rfl I r i) (bind_value (read_dM0 sfp le_rfl I r j) (bind_value (read_dM1 sfp le_rfl I r j) ?_)))
    simp only [List.map_cons, List.map_nil, fluE_u, fluE_v, fluE_p]
    rfl

/-- **C141**: `NavierStokesSUPGPSPGConsistentMass`. -/
theorem C141_supgMass (hN : 0 < ic.N) (ubar : List (Vec ℝ)) (rho mu dt : ℝ) :
    supgS sfu sfp ic eu ep doulist x (supgMassKS eu ep rho) ubar rho mu dt = gather ubar eu m 2 >>= fun U =>
      mixElemM (fun X => supgMass sfu sfp ic X U rho mu dt) (eu, ep) doulist x := by
  refine C141_supg sfu sfp ic eu ep doulist x hN (f := fun U M dM dN => fluM
      (fun i j => rho * (U 0 * dM 0 i * M j + U 1 * dM 1 i * M j))
      (fun _ _ => 0) (fun _ _ => 0)
      (fun i j => rho * (U 0 * dM 0 i * M j + U 1 * dM 1 i * M j))
      (fun _ _ => 0) (fun _ _ => 0)
      (fun j i => rho * dN 0 j * M i)
      (fun j i => rho * dN 1 j * M i)
      (fun _ _ => 0))
    (fun hm hn U r I => ?_) ubar rho mu dt
  subst hm hn
  refine bind_value (C01_vec_read U (0 : Fin 2)) (bind_value (C01_vec_read U (1 : Fin 2)) ?_)
  rw [mixM_laid]
  refine fillS_eq (fluE _ _) (fluE _ _) _ diagE rowE
    (fun i j => ?_) (fun i j => ?_) (by cover)
  · refine bind_value (read_dM0 sfu le_rfl I r i) (bind_value (read_dM1 sfu le_rfl I r i) (bind_value (read_N sfu le_rfl r j) ?_))
    simp only [List.map_cons, List.map_nil, fluE_u, fluE_v, fluE_p]
    rfl
  · refine bind_value (read_N sfu le_rfl r i) (bind_value (read_dM0 sfp le_rfl I r j) (bind_value (read_dM1 sfp le_rfl I r j) ?_))
    simp only [List.map_cons, List.map_nil, fluE_u, fluE_v, fluE_p]
    rfl

/-- **C141**: `ContinuitySUPGPSPGStiffness`. -/
theorem C141_supgContinuity (hN : 0 < ic.N) (ubar : List (Vec ℝ)) (rho mu dt : ℝ) :
    supgS sfu sfp ic eu ep doulist x (fun Ubar _ dMdX dNdX => supgContinuityCS eu ep Ubar dMdX dNdX) ubar rho mu dt = gather ubar eu m 2 >>= fun U =>
      mixElemM (fun X => supgContinuity sfu sfp ic X U rho mu dt) (eu, ep) doulist x := by
  refine C141_supg sfu sfp ic eu ep doulist x hN (f := fun U M dM dN => fluM
      (fun _ _ => 0) (fun _ _ => 0) (fun _ _ => 0) (fun _ _ => 0)
      (fun j i => U 0 * dM 0 j * dN 0 i + U 1 * dM 1 j * dN 0 i)
      (fun j i => U 0 * dM 0 j * dN 1 i + U 1 * dM 1 j * dN 1 i)
      (fun _ _ => 0) (fun _ _ => 0)
      (fun i j => dN 0 i * dN 0 j + dN 1 i * dN 1 j))
    (fun hm hn U r I => ?_) ubar rho mu dt
  subst hm hn
  refine bind_value (C01_vec_read U (0 : Fin 2)) (bind_value (C01_vec_read U (1 : Fin 2)) ?_)
  rw [mixM_laid]
  refine fillS_eq (fluE _ _) (fluE _ _) _ (fun i j => [(.inl (.inl j), .inr i), (.inl (.inr j), .inr i)]) (fun i j => [(.inr i, .inr j)])
    (fun i j => ?_) (fun i j => ?_) (by cover)
  · refine bind_value (read_dM0 sfu le_rfl I r j) (bind_value (read_dM1 sfu le_rfl I r j) (bind_value (read_dM0 sfp le_rfl I r i) (bind_value (read_dM1 sfp le_rfl I r i) ?_)))
    simp only [List.map_cons, List.map_nil, fluE_u, fluE_v, fluE_p]
    rfl
  · refine bind_value (read_dM0 sfp le_rfl I r i) (bind_value (read_dM1 sfp le_rfl I r i) (bind_value (read_dM0 sfp le_rfl I r j) (bind_value (read_dM1 sfp le_rfl I r j) ?_)))
    simp only [List.map_cons, List.map_nil, fluE_u, fluE_v, fluE_p]
    rfl

end SUPG

section Decoupled
variable [DecidableEq K] (sf : SF K 2 m) (ic : IC K 2) (element doulist : List ℕ) (x : List (Vec K))

/-- **C141**: `NavierStokesDecoupledConsistentMass`; it fails where the Jacobian is singular although the
gradient is not used. -/
theorem C141_decoupledMass (hN : 0 < ic.N) (rho : K) :
    decoupledMassS sf ic element doulist x rho =
      elemM2 (fun X => decoupledMass sf ic X rho) element doulist x := by
  refine dec_head joinM (fun hm X => ?_) fun hm X => ?_
  · subst hm
    rw [zeros_joinM]
    refine loopS_zero joinM _ _ fun S g => ?_
    refine (gradS_bind sf X (ic.points g) _).trans ?_
    cases grad? sf X (ic.points g) with
    | none => rfl
    | some G =>
      refine bind_value rfl (bind_value (t := joinM (Matrix.fromBlocks
        (Matrix.of fun i j => rho * sf.N (ic.points g) i * sf.N (ic.points g) j) 0 0
        (Matrix.of fun i j => rho * sf.N (ic.points g) i * sf.N (ic.points g) j))) ?_ ?_)
      · rw [joinM_laid]
        refine fillS_eq (pairE _) (pairE _) _ (fun i j => [(.inl i, .inl j), (.inl i, .inr j), (.inr i, .inl j),
          (.inr i, .inr j)]) (fun _ _ => []) (fun i j => ?_) (fun i j => j.elim0) ?_
        · refine bind_value (C01_vec_read _ i) (bind_value (C01_vec_read _ j) ?_)
          simp only [List.map_cons, List.map_nil, pairE_u, pairE_v]
          rfl
        · rintro (i | i) (j | j) _ <;> exact Or.inl ⟨i, j, by simp⟩
      · refine (joinM_step S _ _).trans ?_
        refine congrArg (fun c : K => some (joinM (S + c • _))) ?_
        simp only [List.prod_cons, List.prod_nil, jac]
        ring
  · refine foldlM_fails (List.mem_finRange ⟨0, hN⟩) (fun s => ?_) _
    simp only []
    rw [mul_mismatch _ _ (Ne.symm hm)]
    rfl

/-- **C141**: `NavierStokesDecoupledLumpedMass`: the diagonal gets the density times the area over the number of
nodes. -/
theorem C141_decoupledLumped (hN : 0 < ic.N) (h0 : 0 < m) (rho : K) :
    decoupledLumpedS sf ic element doulist x rho =
      elemM2 (fun X => decoupledLumped sf ic X rho) element doulist x := by
  have h := dec_head (element := element) (doulist := doulist) (x := x) joinM
    (core := fun X => decoupledLumped sf ic X rho)
    (L := fun X => (List.finRange ic.N).foldlM (fun Area g => do
      let dXdr ← (dense (sf.dNdr (ic.points g))).mul X
      let J ← dXdr.determinant
      return Area + J * ic.weights g 0 * ic.weights g 1) 0 >>= fun Area =>
      (List.range element.length).foldlM (fun Me i => do
        let c ← div? (rho * Area) (element.length : K)
        putsS Me [(i, i, c), (i + element.length, i + element.length, c)])
        (Mat.zeros (2 * element.length) (2 * element.length))) (fun hm X => ?_) fun hm X => ?_
  · refine Eq.trans ?_ h
    refine congrArg (decoupledTableS element.length doulist >>= ·) (funext fun t => ?_)
    cases coordsS x element 2 with
    | none => rfl
    | some X =>
      show _ = ((List.foldlM _ _ _ >>= _) >>= _)
      rw [bind_assoc]
      rfl
  · subst hm
    refine bind_value (areaLoop_eq sf ic X) ?_
    unfold decoupledLumped
    cases hc : div? (rho * area sf ic X) (element.length : K) with
    | none => exact foldlM_fails (List.mem_range.2 h0) (fun s => rfl) _
    | some c =>
      show _ = some (joinM (c • (1 : Matrix (Fin element.length ⊕ Fin element.length) _ K)))
      rw [joinM_laid]
      have hl := loop_flat putsS (fun _ => rfl) putsS_append (fun i : Fin element.length =>
        ([(.inl i, .inl i), (.inr i, .inr i)] : List ((Fin element.length ⊕ Fin element.length) × _)).map fun s =>
          ((pairE _ s.1 : ℕ), (pairE _ s.2 : ℕ), (c • (1 : Matrix (Fin element.length ⊕ Fin element.length) _ K)) s.1 s.2))
        (fun Me i => do
          let c ← some c
          putsS Me [(i, i, c), (i + element.length, i + element.length, c)]) (fun s i => by
            simp [pairE_u, pairE_v]) (Mat.zeros (2 * element.length) (2 * element.length))
      refine hl.trans ?_
      rw [← List.map_flatMap]
      refine puts_target (pairE _) (pairE _) _ _ ?_
      rintro (i | i) (j | j) hne
      · have : i = j := by by_contra hij; exact hne (by simp [hij])
        exact List.mem_flatMap.2 ⟨i, List.mem_finRange i, by simp [this]⟩
      · exact absurd (by simp) hne
      · exact absurd (by simp) hne
      · have : i = j := by by_contra hij; exact hne (by simp [hij])
        exact List.mem_flatMap.2 ⟨i, List.mem_finRange i, by simp [this]⟩
  · refine congrArg (· >>= _) (a₂ := none) ?_
    refine foldlM_fails (List.mem_finRange ⟨0, hN⟩) (fun s => ?_) _
    rw [mul_mismatch _ _ (Ne.symm hm)]
    rfl

/-- **C141**: `NavierStokesAuxiliaryVelocity`. -/
theorem C141_auxiliaryVelocity (hN : 0 < ic.N) (u : List (Vec K)) (rho mu : K) :
    auxiliaryVelocityS sf ic element doulist x u rho mu = gather u element m 2 >>= fun U =>
      elemV2 (fun X => auxiliaryVelocity sf ic X U rho mu) element doulist x := by
  refine (opt_third _ _ _ _).trans ?_
  rw [coordsS_eq u element 2]
  by_cases hm : element.length = m
  · subst hm
    cases gather u element element.length 2 with
    | none => rfl
    | some U =>
      refine dec_head joinV (fun hm X => ?_) fun hm X => absurd rfl hm
      rw [zeros_joinV]
      refine loopS_zero joinV _ _ fun S g => ?_
      refine (gradS_bind sf X (ic.points g) _).trans ?_
      cases grad? sf X (ic.points g) with
      | none => rfl
      | some G =>
        refine bind_value rfl (bind_value (C01_mat_transpose _) (bind_value (C01_mat_vec _ _)
          (bind_value (C01_mat_mul _ _) (bind_value (C01_vec_read _ (0 : Fin 2))
          (bind_value (C01_vec_read _ (1 : Fin 2)) (bind_value (C01_mat_read _ (0 : Fin 2) (0 : Fin 2))
          (bind_value (C01_mat_read _ (0 : Fin 2) (1 : Fin 2)) (bind_value (C01_mat_read _ (1 : Fin 2) (0 : Fin 2))
          (bind_value (C01_mat_read _ (1 : Fin 2) (1 : Fin 2)) ?_)))))))))
        refine bind_value (t := joinV (Sum.elim
          (fun i => rho * sf.N (ic.points g) i * ((Uᵀ *ᵥ sf.N (ic.points g)) 0 * (G * U) 0 0
            + (Uᵀ *ᵥ sf.N (ic.points g)) 1 * (G * U) 1 0) + mu * (G 0 i * (G * U) 0 0 + G 1 i * (G * U) 1 0))
          (fun i => rho * sf.N (ic.points g) i * ((Uᵀ *ᵥ sf.N (ic.points g)) 0 * (G * U) 0 1
            + (Uᵀ *ᵥ sf.N (ic.points g)) 1 * (G * U) 1 1) + mu * (G 0 i * (G * U) 0 1 + G 1 i * (G * U) 1 1)))) ?_ ?_
        · rw [joinV_laid]
          refine fillVS_eq (pairE _) _ (fun i => [.inl i, .inr i]) (fun _ => []) (fun i => ?_) (fun j => j.elim0) ?_
          · refine bind_value (C01_vec_read _ i) (bind_value (C01_mat_read G 0 i)
              (bind_value (C01_mat_read G 1 i) ?_))
            simp only [List.map_cons, List.map_nil, pairE_u, pairE_v]
            rfl
          · rintro (i | i) _ <;> exact Or.inl ⟨i, by simp⟩
        · refine (joinV_stepSub S _ _).trans ?_
          refine congrArg (fun c : K => some (joinV (S + c • _))) ?_
          simp only [List.prod_cons, List.prod_nil, jac]
          ring
  · rw [show gather u element m 2 = none from if_neg hm]
    cases gather u element element.length 2 with
    | none => rfl
    | some U =>
      refine dec_none fun X => foldlM_fails (List.mem_finRange ⟨0, hN⟩) (fun s => ?_) _
      simp only []
      rw [mul_mismatch _ _ (Ne.symm hm)]
      rfl

/-- **C141**: `NavierStokesNextstepVelocity`. -/
theorem C141_nextstepVelocity (hN : 0 < ic.N) (u p : List (Vec K)) :
    nextstepVelocityS sf ic element doulist x u p = gather u element m 2 >>= fun _ =>
      column p element m 0 >>= fun P => elemV2 (fun X => nextstepVelocity sf ic X P) element doulist x := by
  refine (opt_four _ _ _ _ _).trans ?_
  rw [coordsS_eq u element 2, componentS_eq]
  by_cases hm : element.length = m
  · subst hm
    cases gather u element element.length 2 with
    | none => rfl
    | some U =>
    cases column p element element.length 0 with
    | none => rfl
    | some P =>
      refine dec_head joinV (fun hm X => ?_) fun hm X => absurd rfl hm
      rw [zeros_joinV]
      refine loopS_zero joinV _ _ fun S g => ?_
      refine (gradS_bind sf X (ic.points g) _).trans ?_
      cases grad? sf X (ic.points g) with
      | none => rfl
      | some G =>
        refine bind_value rfl (bind_value (C01_mat_transpose _) (bind_value (C01_mat_vec _ _)
          (bind_value (C01_mat_vec _ _) (bind_value (C01_vec_read _ (0 : Fin 2))
          (bind_value (C01_vec_read _ (1 : Fin 2)) ?_)))))
        refine bind_value (t := joinV (Sum.elim (fun i => sf.N (ic.points g) i * (G *ᵥ P) 0)
          (fun i => sf.N (ic.points g) i * (G *ᵥ P) 1))) ?_ ?_
        · rw [joinV_laid]
          refine fillVS_eq (pairE _) _ (fun i => [.inl i, .inr i]) (fun _ => []) (fun i => ?_) (fun j => j.elim0) ?_
          · refine bind_value (C01_vec_read _ i) ?_
            simp only [List.map_cons, List.map_nil, pairE_u, pairE_v]
            rfl
          · rintro (i | i) _ <;> exact Or.inl ⟨i, by simp⟩
        · refine (joinV_stepSub S _ _).trans ?_
          refine congrArg (fun c : K => some (joinV (S + c • _))) ?_
          simp only [List.prod_cons, List.prod_nil, jac]
          ring
  · rw [show gather u element m 2 = none from if_neg hm]
    cases gather u element element.length 2 with
    | none => rfl
    | some U =>
    cases column p element element.length 0 with
    | none => rfl
    | some P =>
      refine dec_none fun X => foldlM_fails (List.mem_finRange ⟨0, hN⟩) (fun s => ?_) _
      simp only []
      rw [mul_mismatch _ _ (Ne.symm hm)]
      rfl

/-- **C141**: `NavierStokesPressurePoisson`: the matrix and the vector. -/
theorem C141_pressurePoisson (hN : 0 < ic.N) (h0 : 0 < m) (u : List (Vec K)) (rho dt : K) :
    pressurePoissonS sf ic element doulist x u rho dt = gather u element m 2 >>= fun U =>
      interleaved 1 element.length doulist >>= fun nte => gather x element m 2 >>= fun X =>
      (pressurePoissonK sf ic X >>= fun A => pressurePoissonF sf ic X U rho dt >>= fun F => pure (A, F)) >>= fun s =>
      pure ((dense s.1, densev s.2), nte) := by
  refine (opt_third _ _ _ _).trans ?_
  rw [coordsS_eq u element 2]
  by_cases hm : element.length = m
  · subst hm
    cases gather u element element.length 2 with
    | none => rfl
    | some U =>
      refine (head_eq (fun X => pressurePoissonK sf ic X >>= fun A => pressurePoissonF sf ic X U rho dt >>= fun F =>
        pure (A, F)) (fun s => (dense s.1, densev s.2)) (fun X nte => _ >>= fun s => pure (s, nte)) (fun hm X nte => ?_)
        fun hm X => absurd rfl hm)
      refine Eq.trans (congrArg (· >>= fun s => pure (s, nte)) (?_ : _ = Option.map (fun s => (dense s.1, densev s.2))
        (pressurePoissonK sf ic X >>= fun A => pressurePoissonF sf ic X U rho dt >>= fun F => pure (A, F)))) ?_
      · refine Eq.trans ?_ (congrArg _ (gauss_prod _ _))
        rw [C01_mat_zeros, C01_vec_zeros]
        refine loopS_zero (fun s : Matrix (Fin element.length) (Fin element.length) K × (Fin element.length → K) =>
          (dense s.1, densev s.2)) _ _ fun S g => ?_
        refine (gradS_bind sf X (ic.points g) _).trans ?_
        cases grad? sf X (ic.points g) with
        | none => rfl
        | some G =>
          refine bind_value rfl (bind_value (C01_mat_mul _ _) (bind_value
            (t := dense (Matrix.of fun i j => G 0 i * G 0 j + G 1 i * G 1 j)) ?_
            (bind_value (scaled_dense _ _) (bind_value (C01_mat_add _ _) ?_))))
          · refine (fillS_eq (Equiv.refl _) (Equiv.refl _) (Matrix.of fun i j => G 0 i * G 0 j + G 1 i * G 1 j)
              (fun i j => [(i, j)]) (fun _ _ => []) (fun i j => ?_) (fun i j => j.elim0)
              (fun i j _ => Or.inl ⟨i, j, by simp⟩))
            exact bind_value (C01_mat_read G 0 i) (bind_value (C01_mat_read G 1 i)
              (bind_value (C01_mat_read G 0 j) (bind_value (C01_mat_read G 1 j) rfl)))
          · cases hc : div? (-rho) dt with
            | none =>
              rw [fillVS_none 0 h0 rfl]
              rfl
            | some c =>
              refine bind_value (t := densev fun i => c * sf.N (ic.points g) i * ((G * U) 0 0 + (G * U) 1 1)) ?_
                (bind_value (scaledV_dense _ _) (bind_value (C01_vec_add _ _) ?_))
              · refine fillVS_eq (Equiv.refl _) (fun i => c * sf.N (ic.points g) i * ((G * U) 0 0 + (G * U) 1 1))
                  (fun i => [i]) (fun _ => []) (fun i => ?_) (fun j => j.elim0) (fun i _ => Or.inl ⟨i, by simp⟩)
                exact bind_value rfl (bind_value (C01_vec_read _ i) (bind_value (C01_mat_read (G * U) 0 0)
                  (bind_value (C01_mat_read (G * U) 1 1) rfl)))
              · have hp : [(jac sf X (ic.points g)).det, ic.weights g 0, ic.weights g 1].prod =
                    (jac sf X (ic.points g)).det * ic.weights g 0 * ic.weights g 1 := by
                  simp only [List.prod_cons, List.prod_nil]; ring
                rw [hp]
                rfl
      · exact map_two _ _ _ |>.trans (by
          cases (pressurePoissonK sf ic X >>= fun A => pressurePoissonF sf ic X U rho dt >>= fun F => pure (A, F)) <;> rfl)
  · rw [show gather u element m 2 = none from if_neg hm]
    cases gather u element element.length 2 with
    | none => rfl
    | some U =>
      show (tableS 1 element doulist >>= _) = none
      cases tableS 1 element doulist with
      | none => rfl
      | some nte =>
        rw [coordsS_eq]
        cases gather x element element.length 2 with
        | none => rfl
        | some X =>
          refine bind_value rfl (bind_value rfl (congrArg (· >>= _) (a₂ := none) ?_))
          refine foldlM_fails (List.mem_finRange ⟨0, hN⟩) (fun s => ?_) _
          simp only []
          rw [mul_mismatch _ _ (Ne.symm hm)]
          rfl

end Decoupled

/-! ### What the stored matrices inherit -/

theorem mixM_symm {A : Matrix (Flu m n) (Flu m n) K} (h : Aᵀ = A) (i j : ℤ) : (mixM A).at? i j = (mixM A).at? j i := by
  rw [mixM_laid]
  have hs : (A.submatrix (fluE m n).symm (fluE m n).symm)ᵀ = A.submatrix (fluE m n).symm (fluE m n).symm := by
    rw [Matrix.transpose_submatrix, h]
  generalize A.submatrix (fluE m n).symm (fluE m n).symm = B at hs
  by_cases hb : (0 ≤ i ∧ i < (2 * m + n : ℕ)) ∧ (0 ≤ j ∧ j < (2 * m + n : ℕ))
  · obtain ⟨⟨h1, h2⟩, h3, h4⟩ := hb
    lift i to ℕ using h1
    lift j to ℕ using h3
    have h2' : i < 2 * m + n := by exact_mod_cast h2
    have h4' : j < 2 * m + n := by exact_mod_cast h4
    have e1 := C01_mat_read B ⟨i, h2'⟩ ⟨j, h4'⟩
    have e2 := C01_mat_read B ⟨j, h4'⟩ ⟨i, h2'⟩
    simp only at e1 e2
    rw [e1, e2]
    exact congrArg some (congrFun (congrFun hs ⟨j, h4'⟩) ⟨i, h2'⟩)
  · unfold Mat.at?
    rw [if_neg (fun h => hb (by simpa [and_assoc, dense] using h)),
      if_neg (fun h => hb (by
        have := h
        simp only [dense] at this
        exact ⟨⟨this.2.2.1, this.2.2.2⟩, this.1, this.2.1⟩))]

/-- **C141**: the Stokes matrix in storage is symmetric: `Ke(i, j)` and `Ke(j, i)` are the same number, or both out
of range. -/
theorem C141_symmetric [DecidableEq K] {sfu : SF K 2 m} {sfp : SF K 2 n} {ic : IC K 2} (hN : 0 < ic.N)
    {eu ep doulist : List ℕ} {x : List (Vec K)} {mu : K} {Ke : Mat K} {t : List (List (ℕ × ℕ)) × List (List (ℕ × ℕ))}
    (h : stokesStiffnessS sfu sfp ic eu ep doulist x mu = some (Ke, t)) (i j : ℤ) :
    Ke.at? i j = Ke.at? j i := by
  by_cases hk : eu.length ≤ m
  · rw [C141_stokesStiffness_first sfu sfp ic eu ep doulist x hN hk] at h
    obtain ⟨_, _, h⟩ := Option.bind_eq_some_iff.1 h
    unfold mixElemM at h
    rw [if_pos rfl] at h
    obtain ⟨s, _, h⟩ := Option.bind_eq_some_iff.1 h
    obtain ⟨X, _, h⟩ := Option.bind_eq_some_iff.1 h
    obtain ⟨A, hA, h⟩ := Option.bind_eq_some_iff.1 h
    have hKe : mixM A = Ke := congrArg Prod.fst (Option.some.inj h)
    rw [← hKe]
    refine mixM_symm ?_ i j
    unfold stokesStiffness loopF at hA
    obtain ⟨v, hv, rfl⟩ := gauss_eq_some.1 hA
    rw [Matrix.transpose_sum]
    refine Finset.sum_congr rfl fun g _ => ?_
    obtain ⟨I, _, h1⟩ := Option.bind_eq_some_iff.1 (hv g)
    obtain ⟨B, hB, h2⟩ := Option.bind_eq_some_iff.1 h1
    rw [← Option.some.inj h2, ← Option.some.inj hB, Matrix.transpose_smul]
    congr 1
    ext r c
    rcases r with (r | r) | r <;> rcases c with (c | c) | c <;>
      simp only [Matrix.transpose_apply, fluM, Matrix.of_apply] <;> ring
  · rw [C141_stokesStiffness_long sfu sfp ic eu ep doulist x hN (by omega)] at h
    cases h

/-- **C141**: the mass routines accept a list of fewer velocity nodes than shape functions: with three unknowns,
coordinates for the pressure nodes and any list that is not longer, `NavierStokesConsistentMass` returns a matrix for
the nodes of the list. -/
theorem C141_short_accepted {sfu : SF K 2 m} {sfp : SF K 2 n} {ic : IC K 2} (hN : 0 < ic.N) {eu ep : List ℕ}
    (hk : eu.length ≤ m) (du dv dp : ℕ) {x : List (Vec K)} {X : Matrix (Fin n) (Fin 2) K} (hX : gather x ep n 2 = some X)
    (rho : K) : ∃ Ke t, nsConsistentMassS sfu sfp ic eu ep [du, dv, dp] x rho = some (Ke, t) ∧
      Ke.row = 2 * eu.length + n ∧ Ke.col = 2 * eu.length + n := by
  rw [C141_consistentMass_first sfu sfp ic eu ep _ x hN hk rho]
  unfold mixElemM
  rw [if_pos rfl]
  have hb : blocked eu.length ep.length [du, dv, dp] = some ((List.range eu.length).map fun i => [(du, i), (dv,
    eu.length + i)], (List.range ep.length).map fun i => [(dp, 2 * eu.length + i)]) := rfl
  obtain ⟨A, hA⟩ : ∃ A, stokesMass (sfu.first eu.length hk) sfp ic X rho = some A :=
    ⟨_, gauss_eq_some.2 ⟨_, fun g => rfl, rfl⟩⟩
  refine ⟨mixM A, _, bind_value hb (bind_value hX (bind_value hA rfl)), ?_, ?_⟩ <;> rw [mixM_laid] <;> rfl

/-! ### Cases -/

example (x : List (Vec ℝ)) (mu : ℝ) :
    stokesStiffnessS SF.triangle6 SF.triangle3 IC.gauss3Triangle [0, 1, 2, 3, 4, 5] [0, 1, 2] [0, 1, 2] x mu =
      gather x [0, 1, 2, 3, 4, 5] 6 2 >>= fun _ => mixElemM (fun X =>
        stokesStiffness SF.triangle6 SF.triangle3 IC.gauss3Triangle X mu) ([0, 1, 2, 3, 4, 5], [0, 1, 2]) [0, 1, 2] x :=
  C141_stokesStiffness _ _ _ _ _ _ _ (by norm_num [IC.gauss3Triangle]) rfl mu

/-- Three velocity nodes for six shape functions. -/
example : ∃ Ke t, nsConsistentMassS SF.triangle6 SF.triangle3 IC.gauss3Triangle [0, 1, 2] [0, 1, 2] [0, 1, 2]
    [⟨[0, 0]⟩, ⟨[1, 0]⟩, ⟨[0, (1 : ℝ)]⟩] 1 = some (Ke, t) ∧ Ke.row = 9 ∧ Ke.col = 9 := by
  refine C141_short_accepted (X := !![0, 0; 1, 0; 0, 1]) (by norm_num [IC.gauss3Triangle]) (by norm_num) 0 1 2 ?_ 1
  unfold gather
  refine (if_pos rfl).trans ?_
  refine allSome_eq_some.2 fun i => allSome_eq_some.2 fun k => ?_
  fin_cases i <;> fin_cases k <;> rfl

example (x : List (Vec ℝ)) (rho : ℝ) :
    stokesMassS SF.triangle3 SF.triangle3 IC.gauss3Triangle [0, 1, 2, 3] [0, 1, 2] [0, 1, 2] x rho = none :=
  C141_stokesMass_long _ _ _ _ _ _ _ (by norm_num [IC.gauss3Triangle]) (by norm_num) rho

example (x ubar : List (Vec ℝ)) (rho mu dt : ℝ) :
    supgS SF.square4 SF.square4 IC.gauss4Square [4, 5, 9, 8] [4, 5, 9, 8] [0, 1, 2] x
      (supgMassKS [4, 5, 9, 8] [4, 5, 9, 8] rho) ubar rho mu dt = gather ubar [4, 5, 9, 8] 4 2 >>= fun U =>
      mixElemM (fun X => supgMass SF.square4 SF.square4 IC.gauss4Square X U rho mu dt)
        ([4, 5, 9, 8], [4, 5, 9, 8]) [0, 1, 2] x :=
  C141_supgMass _ _ _ _ _ _ _ (by norm_num [IC.gauss4Square]) ubar rho mu dt

example (x : List (Vec ℝ)) (rho : ℝ) :
    decoupledLumpedS SF.square4 IC.gauss4Square [4, 5, 9, 8] [0, 1] x rho =
      elemM2 (fun X => decoupledLumped SF.square4 IC.gauss4Square X rho) [4, 5, 9, 8] [0, 1] x :=
  C141_decoupledLumped _ _ _ _ _ (by norm_num [IC.gauss4Square]) (by norm_num) rho

/-- A force along an edge of three velocity nodes and two pressure nodes. -/
example (x : List (Vec ℝ)) :
    stokesSurfaceForceS SF.line3 SF.line2 IC.gauss2Line [0, 1, 2] [0, 1] [0, 1, 2] x (fun _ => densev ![1, 0]) =
      mixElemV (fun X => stokesSurfaceForce SF.line3 SF.line2 IC.gauss2Line X fun _ => ![1, 0])
        ([0, 1, 2], [0, 1]) [0, 1, 2] x :=
  C141_surfaceForce _ _ _ _ _ _ _ (by norm_num [IC.gauss2Line]) rfl fun _ => rfl

end Pansfem
