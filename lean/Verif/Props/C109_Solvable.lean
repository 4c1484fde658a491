/-
C109: the heat conduction and plane strain programs succeed on connected, supported meshes.
-/
import Verif.Lemmas.ProgramElement
import Verif.Spec.ProgramMesh
import Verif.Props.C108_StaticAnalysis

namespace Pansfem

open Matrix

/-! ### One triangle -/

theorem triangle_gather {x : List (Vec ℝ)} {a b c : ℕ} {X : Matrix (Fin 3) (Fin 2) ℝ}
    (h : gather x [a, b, c] 3 2 = some X) (i : Fin 3) (j : Fin 2) : X i j = coord x (![a, b, c] i) j := by
  have := gather_entry h i j
  unfold coord
  fin_cases i <;> · simp at this ⊢; rw [this]; rfl

theorem triangle_measure {x : List (Vec ℝ)} {a b c : ℕ} {X : Matrix (Fin 3) (Fin 2) ℝ}
    (h : gather x [a, b, c] 3 2 = some X) (g : Fin IC.gauss1Triangle.N) :
    measure2 SF.triangle3 IC.gauss1Triangle X g = triArea x a b c / 2 := by
  have hs : (1 / √2 : ℝ) * (1 / √2) = 1 / 2 := by
    rw [div_mul_div_comm, one_mul, Real.mul_self_sqrt (by norm_num)]
  have h1 : (SF.triangle3.dNdr (IC.gauss1Triangle.points g) * X).det = triArea x a b c := by
    rw [Matrix.det_fin_two]
    simp [SF.triangle3, Matrix.mul_apply, Fin.sum_univ_succ, triangle_gather h, triArea]
    ring
  have h2 : IC.gauss1Triangle.weights g 0 = 1 / √2 ∧ IC.gauss1Triangle.weights g 1 = 1 / √2 := by
    have : g = (0 : Fin 1) := Subsingleton.elim (α := Fin 1) _ _
    subst this
    exact ⟨rfl, rfl⟩
  rw [measure2, h1, h2.1, h2.2, mul_assoc, hs]
  ring

theorem triangle_regular {x : List (Vec ℝ)} {a b c : ℕ} {X : Matrix (Fin 3) (Fin 2) ℝ}
    (h : gather x [a, b, c] 3 2 = some X) (hp : 0 < triArea x a b c) :
    Regular SF.triangle3 IC.gauss1Triangle X := by
  intro g h0
  have := triangle_measure h g
  rw [measure2, h0] at this
  simp at this
  linarith

theorem triangle_coords {x : List (Vec ℝ)} {e : List ℕ} (he : HasCoords x e) (hl : e.length = n) :
    ∃ X, gather x e n 2 = some X :=
  Option.isSome_iff_exists.1 (gather_isSome hl fun m hm j => by
    fin_cases j
    · exact (he m hm).1
    · exact (he m hm).2)

theorem dotProduct_self_nonneg' {ι : Type} [Fintype ι] (v : ι → ℝ) : 0 ≤ v ⬝ᵥ v :=
  Finset.sum_nonneg fun _ _ => mul_self_nonneg _

theorem heat_zero {X : Matrix (Fin 3) (Fin 2) ℝ} {ic : IC ℝ 2} (hN : 0 < ic.N)
    (hm : ∀ g, 0 < measure2 SF.triangle3 ic X g) {alpha t : ℝ} (ha : 0 < alpha) (ht : 0 < t)
    {A : Matrix (Fin 3) (Fin 3) ℝ} (h : heatTransfer SF.triangle3 ic X alpha t = some A) {u : Fin 3 → ℝ}
    (hu : u ⬝ᵥ (A *ᵥ u) = 0) (i j : Fin 3) : u i = u j := by
  obtain ⟨hreg, rfl⟩ := heatTransfer_eq_some.1 h
  have e1 := dot_sum_congr_transform (fun g => measure2 SF.triangle3 ic X g * (alpha * t))
    (fun g => gradAt SF.triangle3 X (ic.points g)) (1 : Matrix (Fin 2) (Fin 2) ℝ) u u
  simp only [Matrix.mul_one, Matrix.one_mulVec] at e1
  rw [e1, Finset.sum_eq_zero_iff_of_nonneg fun g _ => mul_nonneg (mul_nonneg (hm g).le (by positivity))
    (dotProduct_self_nonneg' _)] at hu
  have h0 := (mul_eq_zero.1 (hu ⟨0, hN⟩ (Finset.mem_univ _))).resolve_left
    (mul_pos (hm _) (mul_pos ha ht)).ne'
  have hz := dotProduct_self_eq_zero.1 h0
  have hJ : (SF.triangle3.dNdr (ic.points ⟨0, hN⟩) * X) * gradAt SF.triangle3 X (ic.points ⟨0, hN⟩) =
      SF.triangle3.dNdr (ic.points ⟨0, hN⟩) := by
    rw [gradAt, ← Matrix.mul_assoc, Matrix.mul_nonsing_inv _ (Ne.isUnit (hreg _)), Matrix.one_mul]
  have hd : SF.triangle3.dNdr (ic.points ⟨0, hN⟩) *ᵥ u = 0 := by
    rw [← hJ, ← Matrix.mulVec_mulVec, hz, Matrix.mulVec_zero]
  have r0 := congrFun hd 0
  have r1 := congrFun hd 1
  simp [SF.triangle3, Matrix.mulVec, dotProduct, Fin.sum_univ_succ] at r0 r1
  have a0 : u 0 = u 2 := by linarith
  have a1 : u 1 = u 2 := by linarith
  fin_cases i <;> fin_cases j <;> simp [a0, a1]

theorem psd_zero {ι : Type} [Fintype ι] {A : Matrix ι ι ℝ} (hs : Aᵀ = A) (hp : ∀ u, 0 ≤ u ⬝ᵥ (A *ᵥ u))
    {u : ι → ℝ} (hu : u ⬝ᵥ (A *ᵥ u) = 0) : A *ᵥ u = 0 := by
  set w := A *ᵥ u with hw
  have hq : ∀ s : ℝ, 0 ≤ 2 * s * (w ⬝ᵥ w) + s ^ 2 * (w ⬝ᵥ (A *ᵥ w)) := by
    intro s
    have := hp (u + s • w)
    have e1 : u ⬝ᵥ (A *ᵥ w) = w ⬝ᵥ w := by
      rw [Matrix.dotProduct_mulVec, ← Matrix.mulVec_transpose, hs]
    rw [Matrix.mulVec_add, Matrix.mulVec_smul, dotProduct_add, add_dotProduct, add_dotProduct, smul_dotProduct,
      dotProduct_smul, dotProduct_smul, smul_dotProduct, hu, e1, ← hw] at this
    simp only [smul_eq_mul] at this
    linarith
  refine dotProduct_self_eq_zero.1 ?_
  have hP := hp w
  set P := w ⬝ᵥ (A *ᵥ w)
  set W := w ⬝ᵥ w
  have h1 := hq (-W / (P + 1))
  have hd : 0 < P + 1 := by linarith
  have e : 2 * (-W / (P + 1)) * W + (-W / (P + 1)) ^ 2 * P = W ^ 2 * (-(P + 2)) / (P + 1) ^ 2 := by
    field_simp; ring
  rw [e, le_div_iff₀ (by positivity), zero_mul] at h1
  have : W ^ 2 = 0 := by nlinarith [sq_nonneg W]
  simpa using this

/-! ### Dofs of the programs -/

theorem free_table {N k : ℕ} {bc : List ((ℕ × ℕ) × ℝ)} {m j : ℕ} :
    IsFree (freeTable N k) bc (m, j) ↔ m < N ∧ j < k ∧ (m, j) ∉ bc.map Prod.fst := by
  unfold IsFree
  constructor
  · rintro ⟨h1, h2⟩
    have : m < N ∧ j < k := by
      by_contra hc
      apply h1
      unfold numOf dofNum freeTable
      by_cases hm : m < N
      · have hj : ¬ j < k := fun hj => hc ⟨hm, hj⟩
        simp [List.getElem?_replicate, hm, hj]
      · simp [List.getElem?_replicate, hm]
    exact ⟨this.1, this.2, h2⟩
  · rintro ⟨h1, h2, h3⟩
    refine ⟨?_, h3⟩
    simp only [numOf, dofNum_freeTable h1 h2]
    decide

theorem free_table_length {N k : ℕ} {bc : List ((ℕ × ℕ) × ℝ)} :
    (freeDofs (freeTable N k) bc).length ≤ N * k := by
  refine le_trans (List.length_filter_le _ _) ?_
  unfold allDofs
  rw [List.length_flatMap]
  have : ∀ n ∈ List.range (freeTable N k).length,
      ((List.range ((freeTable N k)[n]?.getD []).length).map fun d => (n, d)).length = k := by
    intro n hn
    have hn : n < N := by simpa [freeTable] using hn
    simp [freeTable, List.getElem?_replicate, hn]
  rw [List.map_congr_left this]
  simp [freeTable]

theorem program_succeeds {N k : ℕ} {bc : List ((ℕ × ℕ) × ℝ)} {calls : List (AsmCall ℝ)} {s : LinSolver}
    (hs : s.Finds) (hc : ∀ c ∈ calls, c.Fits (freeTable N k) (zeroField N k))
    (hbc : ∀ p ∈ bc, p.1.1 < N ∧ p.1.2 < k) (hsym : SymmetricCalls calls)
    (hnn : ∀ c ∈ calls, ∀ v, 0 ≤ callEnergy c v v)
    (hz : ∀ v : ℕ → ℕ → ℝ, (∀ m j, ¬ (m < N ∧ j < k ∧ (m, j) ∉ bc.map Prod.fst) → v m j = 0) →
      (∀ c ∈ calls, callEnergy c v v = 0) → ∀ m j, v m j = 0)
    (hload : ∃ p ∈ freeDofs (freeTable N k) bc,
      residual calls (given (zeroField N k) (freeTable N k) bc) p.1 p.2 ≠ 0) (hN : N * k ≤ 100000) :
    ∃ u', staticAnalysis s (zeroField N k) (freeTable N k) bc calls = some (u', true) := by
  refine C108_succeeds s hs _ _ _ _ hc ?_ ?_ hsym ?_ hload (le_trans free_table_length hN)
  · intro p hp
    obtain ⟨h1, h2⟩ := hbc p hp
    exact ⟨by rw [nodal_zeroField h1 h2]; rfl, by rw [dofNum_freeTable h1 h2]; rfl⟩
  · intro p hp
    have hf : IsFree (freeTable N k) bc (p.1, p.2) := of_decide_eq_true (List.mem_filter.1 hp).2
    obtain ⟨h1, h2, -⟩ := free_table.1 hf
    rw [nodal_zeroField h1 h2]; rfl
  · rintro v hv ⟨m, j, hne⟩
    refine energy_pos (fun c hc' => hnn c hc' v) fun hall => hne ?_
    exact hz v (fun m j hnf => hv m j fun hf => hnf (free_table.1 hf)) hall m j

/-! ### C109 -/

/-- **C109**: heat conduction.  On a mesh of triangles of positive area where every node is linked to a node of
given temperature the program computes the temperatures, unless the given temperatures load no node. -/
theorem C109_heat (x : List (Vec ℝ)) (elements : List (List ℕ)) (bc : List ((ℕ × ℕ) × ℝ)) (alpha t : ℝ)
    (hT : Triangles x elements) (ha : 0 < alpha) (ht : 0 < t) (hbc : ∀ p ∈ bc, p.1.1 < x.length ∧ p.1.2 = 0)
    (hconn : ∀ m < x.length, Anchored elements (bc.map Prod.fst) m) (hN : x.length ≤ 100000) :
    ∃ calls, heatCalls x elements alpha t = some calls ∧
      (∀ c ∈ calls, c.Fits (freeTable x.length 1) (zeroField x.length 1)) ∧
      ((∃ p ∈ freeDofs (freeTable x.length 1) bc,
          residual calls (given (zeroField x.length 1) (freeTable x.length 1) bc) p.1 p.2 ≠ 0) →
        ∃ T, heatStatic x elements bc alpha t = some (T, true)) := by
  have hdef : (heatCalls x elements alpha t).isSome := by
    refine matrixCalls_isSome rfl fun e he => ?_
    obtain ⟨h1, a, b, c, rfl, hp⟩ := hT e he
    obtain ⟨X, hX⟩ := triangle_coords h1 (n := 3) rfl
    exact ⟨X, _, hX, by rw [scalarCore, heatTransfer_eq_some.2 ⟨triangle_regular hX hp, rfl⟩]; rfl⟩
  obtain ⟨calls, hcalls⟩ := Option.isSome_iff_exists.1 hdef
  obtain ⟨m1, m2⟩ := matrixCalls_some hcalls
  have hfit : ∀ c ∈ calls, c.Fits (freeTable x.length 1) (zeroField x.length 1) := fun c hc => by
    obtain ⟨h1, e, -, h2⟩ := m1 c hc
    exact elem_fits h1 (by simp) (by norm_num) h2
  -- energy of the call of an element
  have hen : ∀ (e : List ℕ) (c : AsmCall ℝ), e ∈ elements → ElemCall (scalarCore fun X => heatTransfer SF.triangle3
      IC.gauss1Triangle X alpha t) [0] x e c → ∀ v : ℕ → ℕ → ℝ, 0 ≤ callEnergy c v v ∧
        (callEnergy c v v = 0 → ∀ m ∈ e, ∀ m' ∈ e, v m 0 = v m' 0) := by
    rintro e c' he ⟨X, A, hX, hA, rfl⟩ v
    obtain ⟨h1, a, b, c, rfl, hp⟩ := hT e he
    obtain ⟨B, hB, rfl⟩ := Option.map_eq_some_iff.1 hA
    have e1 : callEnergy (.matrix (flatM (k := 1) (B.submatrix Prod.fst Prod.fst)) (interTable 1 3 [0]) [a, b, c]) v v =
        (fun i : Fin 3 => v (![a, b, c] i) 0) ⬝ᵥ (B *ᵥ fun i : Fin 3 => v (![a, b, c] i) 0) := by
      rw [matrix_energy (n := 3) (k := 1) _ rfl rfl]
      simp [dotProduct, mulVec, Fintype.sum_prod_type, Fin.sum_univ_succ, localField]
    have hpos : ∀ g, 0 < measure2 SF.triangle3 IC.gauss1Triangle X g := fun g => by
      rw [triangle_measure hX]; linarith
    refine ⟨?_, fun hz => ?_⟩
    · rw [e1]
      exact C34_heatTransfer (fun g => (hpos g).le) ht.le ha.le hB _
    · rw [e1] at hz
      have h3 := heat_zero (by show 0 < 1; norm_num) hpos ha ht hB hz
      have h01 := h3 0 1
      have h12 := h3 1 2
      simp at h01 h12
      intro m hm m' hm'
      simp at hm hm'
      rcases hm with rfl | rfl | rfl <;> rcases hm' with rfl | rfl | rfl <;> simp_all
  refine ⟨calls, hcalls, hfit, fun hload => ?_⟩
  obtain ⟨T, hres⟩ := program_succeeds useCG_finds hfit
    (fun p hp => ⟨(hbc p hp).1, by rw [(hbc p hp).2]; norm_num⟩)
    (fun c hc => by
      obtain ⟨h1, e, -, h2⟩ := m1 c hc
      refine elem_sym h1 h2 fun X A hA => ?_
      obtain ⟨B, hB, rfl⟩ := Option.map_eq_some_iff.1 hA
      rw [Matrix.transpose_submatrix, C32_heatTransfer hB])
    (fun c hc v => by
      obtain ⟨h1, e, he, h2⟩ := m1 c hc
      exact (hen e c he h2 v).1)
    (fun v hv hall m j => by
      by_cases hm : m < x.length ∧ j < 1
      · have hj : j = 0 := by omega
        subst hj
        have : ∀ m, Anchored elements (bc.map Prod.fst) m → v m 0 = 0 := by
          intro m hA
          induction hA with
          | fixed hf => exact hv _ _ fun hc => hc.2.2 hf
          | step he h1 h2 _ ih =>
            obtain ⟨c, hc, hcall⟩ := m2 _ he
            rw [(hen _ c he hcall v).2 (hall c hc) _ h1 _ h2]
            exact ih
        exact this m (hconn m hm.1)
      · exact hv m j fun hc => hm ⟨hc.1, hc.2.1⟩) hload (by omega)
  exact ⟨T, by
    unfold heatStatic
    simp only [hcalls, Option.bind_eq_bind, Option.bind_some]
    exact hres⟩

theorem distinct_corners {x : List (Vec ℝ)} {a b c m m' : ℕ} (hp : 0 < triArea x a b c) (hm : m ∈ [a, b, c])
    (hm' : m' ∈ [a, b, c]) (hne : m ≠ m') : ¬ (coord x m 0 = coord x m' 0 ∧ coord x m 1 = coord x m' 1) := by
  rintro ⟨h0, h1⟩
  unfold triArea at hp
  simp at hm hm'
  rcases hm with rfl | rfl | rfl <;> rcases hm' with rfl | rfl | rfl <;>
    first
    | exact hne rfl
    | (rw [h0, h1] at hp; ring_nf at hp; exact lt_irrefl _ hp)

theorem rigid_unique {x : List (Vec ℝ)} {m m' : ℕ} {p q w p' q' w' : ℝ}
    (hne : ¬ (coord x m 0 = coord x m' 0 ∧ coord x m 1 = coord x m' 1))
    (h : ∀ n, n = m ∨ n = m' → ∀ j < 2, rigidAt x p q w n j = rigidAt x p' q' w' n j) :
    p = p' ∧ q = q' ∧ w = w' := by
  have a0 := h m (Or.inl rfl) 0 (by norm_num)
  have a1 := h m (Or.inl rfl) 1 (by norm_num)
  have b0 := h m' (Or.inr rfl) 0 (by norm_num)
  have b1 := h m' (Or.inr rfl) 1 (by norm_num)
  simp only [rigidAt, if_true, one_ne_zero, if_false] at a0 a1 b0 b1
  have hw : w = w' := by
    by_contra hw
    have hw' : w - w' ≠ 0 := sub_ne_zero.2 hw
    refine hne ⟨?_, ?_⟩
    · have : (w - w') * (coord x m 0 - coord x m' 0) = 0 := by linear_combination a1 - b1
      linarith [(mul_eq_zero.1 this).resolve_left hw']
    · have : (w - w') * (coord x m 1 - coord x m' 1) = 0 := by linear_combination b0 - a0
      linarith [(mul_eq_zero.1 this).resolve_left hw']
  subst hw
  exact ⟨by linarith, by linarith, rfl⟩

/-- **C109**: plane strain.  On a mesh of triangles of positive area connected through sides, with supports that
allow no rigid motion, the program computes the displacements, unless no free dof is loaded. -/
theorem C109_planeStrain (x : List (Vec ℝ)) (elements edges : List (List ℕ)) (bc q : List ((ℕ × ℕ) × ℝ))
    (E V t : ℝ) (fb fs : (Fin 2 → ℝ) → Fin 2 → ℝ) (hT : Triangles x elements)
    (hedge : ∀ e ∈ edges, HasCoords x e ∧ e.length = 2) (hE : 0 < E) (h1 : -1 < V) (h2 : 2 * V < 1) (ht : 0 < t)
    (hbc : ∀ p ∈ bc, p.1.1 < x.length ∧ p.1.2 < 2) (hq : ∀ p ∈ q, p.1.1 < x.length ∧ p.1.2 < 2)
    (hconn : SideConnected elements) (hsup : Supported x elements (bc.map Prod.fst))
    (huse : ∀ m < x.length, ∀ j < 2, (∃ e ∈ elements, m ∈ e) ∨ (m, j) ∈ bc.map Prod.fst)
    (hN : x.length * 2 ≤ 100000) :
    ∃ calls, planeStrainCalls x elements edges q E V t fb fs = some calls ∧
      (∀ c ∈ calls, c.Fits (freeTable x.length 2) (zeroField x.length 2)) ∧
      ((∃ p ∈ freeDofs (freeTable x.length 2) bc,
          residual calls (given (zeroField x.length 2) (freeTable x.length 2) bc) p.1 p.2 ≠ 0) →
        ∃ u, planeStrainStatic x elements edges bc q E V t fb fs = some (u, true)) := by
  have hV : (1 - 2 * V) * (1 + V) ≠ 0 := (mul_pos (by linarith) (by linarith)).ne'
  obtain ⟨ks, hks⟩ := Option.isSome_iff_exists.1 (matrixCalls_isSome (k := 2) (dl := [0, 1])
    (core := fun X => planeStrainStiffness SF.triangle3 IC.gauss1Triangle X E V t) (x := x) (elements := elements) rfl
    fun e he => by
      obtain ⟨h1, a, b, c, rfl, hp⟩ := hT e he
      obtain ⟨X, hX⟩ := triangle_coords h1 (n := 3) rfl
      obtain ⟨A, hA⟩ := Option.isSome_iff_exists.1 ((C32_planeStrain_defined (E := E) (t := t)).2
        ⟨hV, triangle_regular hX hp⟩)
      exact ⟨X, A, hX, hA⟩)
  obtain ⟨bs, hbs⟩ := Option.isSome_iff_exists.1 (loadCalls_isSome (k := 2) (dl := [0, 1])
    (vcore := fun X => planeBodyForce SF.triangle3 IC.gauss1Triangle X fb t) (x := x) (elements := elements) rfl
    fun e he => by
      obtain ⟨h1, a, b, c, rfl, hp⟩ := hT e he
      obtain ⟨X, hX⟩ := triangle_coords h1 (n := 3) rfl
      exact ⟨X, _, hX, loop2J_eq_some.2 rfl⟩)
  obtain ⟨ss, hss⟩ := Option.isSome_iff_exists.1 (loadCalls_isSome (k := 2) (dl := [0, 1])
    (vcore := fun X => planeSurfaceForce SF.line2 IC.gauss1Line X fs t) (x := x) (elements := edges) rfl
    fun e he => by
      obtain ⟨h1, h2⟩ := hedge e he
      obtain ⟨X, hX⟩ := triangle_coords h1 h2
      exact ⟨X, _, hX, loop1_eq_some.2 rfl⟩)
  have hcalls : planeStrainCalls x elements edges q E V t fb fs = some (ks ++ bs ++ [.nodal q] ++ ss) := by
    unfold planeStrainCalls
    simp only [hks, hbs, hss, Option.bind_eq_bind, Option.bind_some, Option.pure_def]
  obtain ⟨m1, m2⟩ := matrixCalls_some hks
  have m3 := loadCalls_some hbs
  have m4 := loadCalls_some hss
  have hcases : ∀ {P : AsmCall ℝ → Prop}, (∀ c ∈ ks, P c) → (∀ c ∈ bs, P c) → P (.nodal q) → (∀ c ∈ ss, P c) →
      ∀ c ∈ ks ++ bs ++ [.nodal q] ++ ss, P c := by
    intro P p1 p2 p3 p4 c hc
    simp only [List.mem_append, List.mem_singleton] at hc
    rcases hc with ((hc | hc) | rfl) | hc
    · exact p1 c hc
    · exact p2 c hc
    · exact p3
    · exact p4 c hc
  have hdl : ∀ j ∈ [0, 1], j < 2 := by decide
  have hfit : ∀ c ∈ ks ++ bs ++ [.nodal q] ++ ss, c.Fits (freeTable x.length 2) (zeroField x.length 2) := by
    refine hcases (fun c hc => ?_) (fun c hc => ?_) ?_ (fun c hc => ?_)
    · obtain ⟨a1, e, -, a2⟩ := m1 c hc
      exact elem_fits a1 hdl (by norm_num) a2
    · obtain ⟨a1, e, -, a2⟩ := m3 c hc
      exact load_fits a1 hdl (by norm_num) a2
    · refine ⟨?_, trivial⟩
      intro p hp
      simp only [AsmCall.dofs, List.mem_map] at hp
      obtain ⟨r, hr, rfl⟩ := hp
      have hr' : r.1 ∈ q := by
        have := List.mem_zipIdx hr
        rw [this.2.2]
        exact List.getElem_mem _
      obtain ⟨b1, b2⟩ := hq _ hr'
      exact ⟨by simp only [dofNum_freeTable b1 b2]; rfl, by simp only [nodal_zeroField b1 b2]; rfl⟩
    · obtain ⟨a1, e, -, a2⟩ := m4 c hc
      exact load_fits a1 hdl (by norm_num) a2
  have hen : ∀ (e : List ℕ) (c : AsmCall ℝ), e ∈ elements → ElemCall (k := 2) (fun X => planeStrainStiffness
      SF.triangle3 IC.gauss1Triangle X E V t) [0, 1] x e c → ∀ v : ℕ → ℕ → ℝ, 0 ≤ callEnergy c v v ∧
        (callEnergy c v v = 0 → ∃ p q w, ∀ m ∈ e, ∀ j < 2, v m j = rigidAt x p q w m j) := by
    rintro e c' he ⟨X, A, hX, hA, rfl⟩ v
    obtain ⟨-, a, b, c, rfl, hp⟩ := hT e he
    have e1 := matrix_energy A (e := [a, b, c]) (dl := [0, 1]) rfl rfl v v
    have hpos : ∀ g, 0 < measure2 SF.triangle3 IC.gauss1Triangle X g := fun g => by
      rw [triangle_measure hX]; linarith
    have hnn := C34_planeStrain (fun g => (hpos g).le) ht.le hE.le h1 h2 hA
    refine ⟨by rw [e1]; exact hnn _, fun hz => ?_⟩
    rw [e1] at hz
    obtain ⟨tr, w, htr⟩ := (C34_triangle_kernel (by show 0 < 1; norm_num) hpos ht hE h1 h2 hA _).1
      (psd_zero (C32_planeStrain hA) hnn hz)
    refine ⟨tr 0, tr 1, w, ?_⟩
    have hv : ∀ (i : Fin 3) (j : Fin 2), v (![a, b, c] i) j = rigidAt x (tr 0) (tr 1) w (![a, b, c] i) j := by
      intro i j
      have := congrFun htr (i, j)
      have hl : localField (K := ℝ) [0, 1] [a, b, c] v (i, j) = v (![a, b, c] i) j := by
        fin_cases i <;> fin_cases j <;> rfl
      rw [hl] at this
      rw [this]
      unfold rigid2 rigidAt
      rw [triangle_gather hX, triangle_gather hX]
      fin_cases j
      · simp; ring
      · simp
    intro m hm j hj
    have hm' : ∃ i : Fin 3, m = ![a, b, c] i := by
      simp at hm
      rcases hm with rfl | rfl | rfl
      exacts [⟨0, rfl⟩, ⟨1, rfl⟩, ⟨2, rfl⟩]
    obtain ⟨i, rfl⟩ := hm'
    exact hv i ⟨j, hj⟩
  refine ⟨_, hcalls, hfit, fun hload => ?_⟩
  obtain ⟨u, hres⟩ := program_succeeds useCG_finds hfit hbc
    (hcases (fun c hc => by
        obtain ⟨a1, e, -, a2⟩ := m1 c hc
        exact elem_sym a1 a2 fun X A hA => C32_planeStrain hA)
      (fun c hc => by obtain ⟨-, e, -, X, f, -, -, rfl⟩ := m3 c hc; intros; rfl) (by intros; rfl)
      (fun c hc => by obtain ⟨-, e, -, X, f, -, -, rfl⟩ := m4 c hc; intros; rfl))
    (hcases (fun c hc v => by
        obtain ⟨a1, e, he, a2⟩ := m1 c hc
        exact (hen e c he a2 v).1)
      (fun c hc v => by obtain ⟨-, e, -, a2⟩ := m3 c hc; exact (load_energy a2 v v).ge)
      (fun v => (nodal_energy q v v).ge)
      (fun c hc v => by obtain ⟨-, e, -, a2⟩ := m4 c hc; exact (load_energy a2 v v).ge))
    (fun v hv hall => by
      have hmesh : ∀ e ∈ elements, ∀ m ∈ e, ∀ j < 2, v m j = 0 := by
        intro e he
        obtain ⟨c, hc, hcall⟩ := m2 e he
        obtain ⟨p, r, w, hr⟩ := (hen e c he hcall v).2 (hall c (by simp [hc]))
        have hspread : ∀ f, Relation.ReflTransGen (fun a b => b ∈ elements ∧ ShareSide a b) e f →
            f ∈ elements ∧ ∀ m ∈ f, ∀ j < 2, v m j = rigidAt x p r w m j := by
          intro f hf
          induction hf with
          | refl => exact ⟨he, hr⟩
          | @tail g f _ hgf ih =>
            obtain ⟨hg, ihr⟩ := ih
            obtain ⟨hfm, m, m', hne, g1, g2, f1, f2⟩ := hgf
            obtain ⟨c', hc', hcall'⟩ := m2 f hfm
            obtain ⟨p', r', w', hr'⟩ := (hen f c' hfm hcall' v).2 (hall c' (by simp [hc']))
            obtain ⟨-, a, b, d, rfl, hp⟩ := hT f hfm
            obtain ⟨rfl, rfl, rfl⟩ := rigid_unique (distinct_corners hp f1 f2 hne)
              (p := p) (q := r) (w := w) (p' := p') (q' := r') (w' := w') (by
                rintro n (rfl | rfl) j hj
                · rw [← ihr _ g1 j hj, ← hr' _ f1 j hj]
                · rw [← ihr _ g2 j hj, ← hr' _ f2 j hj])
            exact ⟨hfm, hr'⟩
        obtain ⟨rfl, rfl, rfl⟩ := hsup p r w (by
          rintro ⟨m, j⟩ hs ⟨f, hf, hm⟩ hj
          rw [← (hspread f (hconn e he f hf)).2 m hm j hj]
          exact hv m j fun hc => hc.2.2 hs)
        intro m hm j hj
        rw [hr m hm j hj]
        simp [rigidAt]
      intro m j
      by_cases hmj : m < x.length ∧ j < 2
      · rcases huse m hmj.1 j hmj.2 with ⟨e, he, hm⟩ | hf
        · exact hmesh e he m hm j hmj.2
        · exact hv m j fun hc => hc.2.2 hf
      · exact hv m j fun hc => hmj ⟨hc.1, hc.2.1⟩) hload hN
  exact ⟨u, by
    unfold planeStrainStatic
    simp only [hcalls, Option.bind_eq_bind, Option.bind_some]
    exact hres⟩

/-! ### One triangle, supported and loaded -/

/-- The nodes of a right-angled triangle. -/
def cornerNodes : List (Vec ℝ) := [⟨[0, 0]⟩, ⟨[1, 0]⟩, ⟨[0, 1]⟩]

theorem corner_triangles : Triangles cornerNodes [[0, 1, 2]] := by
  intro e he
  obtain rfl := List.mem_singleton.1 he
  refine ⟨?_, 0, 1, 2, rfl, ?_⟩
  · intro m hm
    simp at hm
    rcases hm with rfl | rfl | rfl <;> simp [nodal, cornerNodes, Vec.at?, Vec.size]
  · norm_num [triArea, coord, nodal, cornerNodes, Vec.at?, Vec.size]

/-- The given temperatures load the third corner. -/
theorem corner_load {calls : List (AsmCall ℝ)} (hc : heatCalls cornerNodes [[0, 1, 2]] 5 1 = some calls) :
    residual calls (given (zeroField cornerNodes.length 1) (freeTable cornerNodes.length 1)
      [((0, 0), (300 : ℝ)), ((1, 0), 0)]) 2 0 ≠ 0 := by
  obtain ⟨m1, m2⟩ := matrixCalls_some hc
  have hlen : calls.length = 1 := by
    simp only [heatCalls, matrixCalls, List.mapM_cons, List.mapM_nil, Option.bind_eq_bind, Option.pure_def,
      Option.bind_eq_some_iff, Option.some.injEq] at hc
    obtain ⟨b, -, r, rfl, rfl⟩ := hc
    rfl
  obtain ⟨c, rfl⟩ := List.length_eq_one_iff.1 hlen
  obtain ⟨-, e, he, X, A, hX, hA, rfl⟩ := m1 c (by simp)
  obtain rfl := List.mem_singleton.1 he
  obtain ⟨B, hB, rfl⟩ := Option.map_eq_some_iff.1 hA
  obtain ⟨hreg, rfl⟩ := heatTransfer_eq_some.1 hB
  have hx := triangle_gather hX
  have hmeas := triangle_measure hX
  have hJ : ∀ g, (SF.triangle3.dNdr (IC.gauss1Triangle.points g) * X) * gradAt SF.triangle3 X
      (IC.gauss1Triangle.points g) = SF.triangle3.dNdr (IC.gauss1Triangle.points g) := fun g => by
    rw [gradAt, ← Matrix.mul_assoc, Matrix.mul_nonsing_inv _ (Ne.isUnit (hreg g)), Matrix.one_mul]
  rw [residual_eq, energy_eq]
  simp only [List.map_cons, List.map_nil, List.sum_cons, List.sum_nil, add_zero]
  rw [matrix_energy (n := 3) (k := 1) _ rfl rfl]
  have hrhs : callLoad (.matrix (flatM (k := 1) ((∑ g, (measure2 SF.triangle3 IC.gauss1Triangle X g * (5 * 1)) •
      ((gradAt SF.triangle3 X (IC.gauss1Triangle.points g))ᵀ * gradAt SF.triangle3 X
        (IC.gauss1Triangle.points g))).submatrix Prod.fst Prod.fst)) (interTable 1 3 [0]) [0, 1, 2])
      (unitField 2 0) = 0 := by
    simp [callLoad, AsmCall.rhs]
  rw [hrhs, sub_zero]
  have hJ0 := hJ (0 : Fin 1)
  have hm0 := hmeas (0 : Fin 1)
  have hsum : (∑ g, (measure2 SF.triangle3 IC.gauss1Triangle X g * (5 * 1)) •
      ((gradAt SF.triangle3 X (IC.gauss1Triangle.points g))ᵀ * gradAt SF.triangle3 X
        (IC.gauss1Triangle.points g))) = (measure2 SF.triangle3 IC.gauss1Triangle X (0 : Fin 1) * (5 * 1)) •
      ((gradAt SF.triangle3 X (IC.gauss1Triangle.points (0 : Fin 1)))ᵀ * gradAt SF.triangle3 X
        (IC.gauss1Triangle.points (0 : Fin 1))) := Fin.sum_univ_one _
  rw [hsum, hm0]
  set G := gradAt SF.triangle3 X (IC.gauss1Triangle.points (0 : Fin 1))
  have k0 := congrFun (congrFun hJ0 0)
  have k1 := congrFun (congrFun hJ0 1)
  have a0 := k0 0
  have a2 := k0 2
  have b0 := k1 0
  have b2 := k1 2
  have hX6 : X 0 0 = 0 ∧ X 0 1 = 0 ∧ X 1 0 = 1 ∧ X 1 1 = 0 ∧ X 2 0 = 0 ∧ X 2 1 = 1 := by
    simp [hx, coord, nodal, cornerNodes, Vec.at?, Vec.size]
  obtain ⟨x00, x01, x10, x11, x20, x21⟩ := hX6
  simp [SF.triangle3, Matrix.mul_apply, Fin.sum_univ_succ, x00, x01, x10, x11, x20, x21, Matrix.vecMul,
    dotProduct] at a0 a2 b0 b2
  have hG : G 1 0 = -1 ∧ G 1 2 = 1 ∧ G 0 0 = -1 ∧ G 0 2 = 0 :=
    ⟨by linarith, by linarith, by linarith, by linarith⟩
  have harea : triArea cornerNodes 0 1 2 = 1 := by
    norm_num [triArea, coord, nodal, cornerNodes, Vec.at?, Vec.size]
  have hval : ∀ i : Fin 3, given (zeroField cornerNodes.length 1) (freeTable cornerNodes.length 1)
      [((0, 0), (300 : ℝ)), ((1, 0), 0)] i 0 = ![300, 0, 0] i := by
    intro i
    fin_cases i <;> simp [given, free_table, cornerNodes, lastValue]
  have hv0 := hval 0
  have hv1 := hval 1
  have hv2 := hval 2
  simp at hv0 hv1 hv2
  rw [harea]
  simp [dotProduct, mulVec, Fintype.sum_prod_type, Fin.sum_univ_succ, localField, unitField, hv0, hv1, hv2,
    Matrix.mul_apply, hG.1, hG.2.1, hG.2.2.1, hG.2.2.2]

theorem corner_free : (2, 0) ∈ freeDofs (freeTable cornerNodes.length 1) [((0, 0), (300 : ℝ)), ((1, 0), 0)] := by
  simp [freeDofs, allDofs, freeTable, cornerNodes, IsFree, numOf, dofNum, List.range_succ, List.filter]

theorem corner_anchored : ∀ m < cornerNodes.length, Anchored [[0, 1, 2]] [(0, 0), (1, 0)] m := by
  intro m hm
  have h0 : Anchored [[0, 1, 2]] [(0, 0), (1, 0)] 0 := .fixed (by simp)
  have hm : m < 3 := hm
  refine .step (m' := 0) (e := [0, 1, 2]) (by simp) ?_ (by simp) h0
  simp; omega

/-- Conduction with temperatures given at two corners. -/
example : ∃ T, heatStatic cornerNodes [[0, 1, 2]] [((0, 0), 300), ((1, 0), 0)] 5 1 = some (T, true) := by
  obtain ⟨calls, hc, -, hsolve⟩ := C109_heat cornerNodes [[0, 1, 2]] [((0, 0), 300), ((1, 0), 0)] 5 1
    corner_triangles (by norm_num) (by norm_num) (by simp [cornerNodes]) corner_anchored (by simp [cornerNodes])
  exact hsolve ⟨(2, 0), corner_free, corner_load hc⟩

/-- A triangle on three supports with a force at the free corner. -/
example : ∃ u, planeStrainStatic cornerNodes [[0, 1, 2]] [] [((0, 0), 0), ((0, 1), 0), ((1, 1), 0)] [((2, 1), -100)]
    210000 (3 / 10) 1 (fun _ => 0) (fun _ => 0) = some (u, true) := by
  obtain ⟨calls, hc, -, hsolve⟩ := C109_planeStrain cornerNodes [[0, 1, 2]] []
    [((0, 0), 0), ((0, 1), 0), ((1, 1), 0)] [((2, 1), -100)] 210000 (3 / 10) 1 (fun _ => 0) (fun _ => 0)
    corner_triangles (by simp) (by norm_num) (by norm_num) (by norm_num) (by norm_num) (by simp [cornerNodes])
    (by simp [cornerNodes])
    (by
      intro e he f hf
      rw [List.mem_singleton.1 he, List.mem_singleton.1 hf])
    (by
      intro p q w h
      have s0 := h (0, 0) (by simp) ⟨_, List.mem_singleton.2 rfl, by simp⟩ (by norm_num)
      have s1 := h (0, 1) (by simp) ⟨_, List.mem_singleton.2 rfl, by simp⟩ (by norm_num)
      have s2 := h (1, 1) (by simp) ⟨_, List.mem_singleton.2 rfl, by simp⟩ (by norm_num)
      simp [rigidAt, coord, nodal, cornerNodes, Vec.at?, Vec.size] at s0 s1 s2
      exact ⟨s0, s1, by linarith⟩)
    (by
      intro m hm j _
      have hm : m < 3 := hm
      exact Or.inl ⟨_, List.mem_singleton.2 rfl, by simp; omega⟩)
    (by simp [cornerNodes])
  apply hsolve
  have hgiven : given (zeroField cornerNodes.length 2) (freeTable cornerNodes.length 2)
      [((0, 0), (0 : ℝ)), ((0, 1), 0), ((1, 1), 0)] = fun _ _ => 0 := by
    funext m j
    unfold given
    split_ifs with hf
    · rfl
    · have hz := zeroField_val cornerNodes.length 2 m j
      cases hl : lastValue [((0, 0), (0 : ℝ)), ((0, 1), 0), ((1, 1), 0)] m j with
      | none => exact hz
      | some r =>
        simp only [lastValue, Option.map_eq_some_iff] at hl
        obtain ⟨p, hp, rfl⟩ := hl
        have := List.mem_of_find?_eq_some hp
        simp at this
        rcases this with rfl | rfl | rfl <;> rfl
  refine ⟨(2, 1), ?_, ?_⟩
  · simp [freeDofs, allDofs, freeTable, cornerNodes, IsFree, numOf, dofNum, List.range_succ, List.filter]
  · simp only [planeStrainCalls, Option.bind_eq_bind, Option.pure_def, Option.bind_eq_some_iff,
      Option.some.injEq] at hc
    obtain ⟨ks, hks, bs, hbs, ss, hss, rfl⟩ := hc
    obtain rfl : [] = ss := by simpa [loadCalls] using hss
    have hk : ∀ c ∈ ks, callLoad c (unitField 2 1) = 0 := fun c hc => by
      obtain ⟨-, e, -, X, A, -, -, rfl⟩ := (matrixCalls_some hks).1 c hc
      simp [callLoad, AsmCall.rhs]
    have hb : ∀ c ∈ bs, callLoad c (unitField 2 1) = 0 := fun c hc => by
      obtain ⟨-, e, -, X, f, hX, hf, rfl⟩ := loadCalls_some hbs c hc
      rw [load_work (k := 2) (gather_length hX) rfl]
      have : f = 0 := by
        have := loop2J_eq_some.1 hf
        simpa using this
      rw [this, dotProduct_zero]
    have hE : energy (ks ++ bs ++ [.nodal [((2, 1), (-100 : ℝ))]] ++ []) (unitField 2 1) (fun _ _ => 0) = 0 := by
      simp [energy]
    rw [hgiven, residual_eq, hE]
    simp only [List.map_append, List.sum_append, List.map_congr_left hk, List.map_congr_left hb]
    simp [callLoad, AsmCall.dofs, AsmCall.rhs, unitField]

end Pansfem
