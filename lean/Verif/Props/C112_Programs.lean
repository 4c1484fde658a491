/-
C112 for the heat conduction and the reaction-diffusion program.
-/
import Verif.Props.C112_TimeStepping
import Verif.Lemmas.ProgramDesign

namespace Pansfem

open Matrix

/-! ### Elements with one unknown per node -/

theorem flatM_wf {K : Type} {n k : ℕ} (A : Matrix (Fin n × Fin k) (Fin n × Fin k) K) : (flatM A).WF := by
  simp [flatM, Mat.WF]

/-- An element of the two programs. -/
structure ScalarItem {n : ℕ} (x : List (Vec ℝ)) (e : List ℕ) (X : Matrix (Fin n) (Fin 2) ℝ)
    (B A : Matrix (Fin n) (Fin n) ℝ) (it : TimeItem ℝ) : Prop where
  coords : gather x e n 2 = some X
  mass : it.Me = flatM (k := 1) (B.submatrix Prod.fst Prod.fst)
  stiff : it.Ke = flatM (k := 1) (A.submatrix Prod.fst Prod.fst)
  nte : it.nte = interTable 1 n [0]
  element : it.element = e

section
variable {n : ℕ} {x : List (Vec ℝ)} {e : List ℕ} {X : Matrix (Fin n) (Fin 2) ℝ} {B A : Matrix (Fin n) (Fin n) ℝ}
  {it : TimeItem ℝ}

theorem ScalarItem.sound (h : ScalarItem x e X B A it) {u : List (Vec ℝ)}
    (hu : ∀ m < x.length, (nodal u m 0).isSome) (hF : ∀ f, it.Fe = some f → f.size = n) :
    it.Sound (freeTable x.length 1) u := by
  have hl := gather_length h.coords
  obtain ⟨p1, p2⟩ := inter_perm (n := n) (k := 1) (dl := [0]) hl rfl
  have sq : ∀ C : Matrix (Fin n × Fin 1) (Fin n × Fin 1) ℝ, ElemData.Square ⟨flatM C, it.nte, it.element⟩ := by
    intro C
    rw [h.nte, h.element]
    exact ⟨by rw [interTable_length, hl], p1, by rw [p2]; rfl, by rw [p2]; rfl⟩
  refine ⟨by rw [h.mass]; exact flatM_wf _, by rw [h.stiff]; exact flatM_wf _, by rw [h.mass]; exact sq _,
    by rw [h.stiff]; exact sq _, ?_, ?_⟩
  · intro p hp
    rw [h.nte, h.element] at hp
    obtain ⟨i, j, rfl⟩ := (mem_localDofs_inter (k := 1) (dl := [0]) hl rfl).1 hp
    have hi : (i : ℕ) < e.length := by rw [hl]; exact i.2
    have h1 := gather_entry h.coords i 0
    rw [List.getElem?_eq_getElem hi] at h1
    have h2 : e[(i : ℕ)] < x.length := nodal_lt (x := x) (j := 0) (by
      rw [show nodal x e[(i : ℕ)] 0 = _ from h1]; rfl)
    have hj : j = 0 := Subsingleton.elim _ _
    subst hj
    exact ⟨by simp only [Fin.val_zero, List.getElem_cons_zero]; rw [dofNum_freeTable h2 (by norm_num)]; rfl, hu _ h2⟩
  · intro f hf
    rw [h.nte, h.element, p2, hF f hf, mul_one]

theorem ScalarItem.mass_call (h : ScalarItem x e X B A it) : it.mass =
    .matrix (flatM (k := 1) (B.submatrix Prod.fst Prod.fst)) (interTable 1 n [0]) e := by
  rw [TimeItem.mass, h.mass, h.nte, h.element]

theorem ScalarItem.stiff_call (h : ScalarItem x e X B A it) : it.stiff =
    .matrix (flatM (k := 1) (A.submatrix Prod.fst Prod.fst)) (interTable 1 n [0]) e := by
  rw [TimeItem.stiff, h.stiff, h.nte, h.element]

/-- The values at the nodes of an element. -/
def nodeValues (n : ℕ) (e : List ℕ) (v : ℕ → ℕ → ℝ) (i : Fin n) : ℝ := v (e[(i : ℕ)]?.getD 0) 0

theorem scalar_energy (C : Matrix (Fin n) (Fin n) ℝ) (he : e.length = n) (v w : ℕ → ℕ → ℝ) :
    callEnergy (.matrix (flatM (k := 1) (C.submatrix Prod.fst Prod.fst)) (interTable 1 n [0]) e) v w =
      nodeValues n e v ⬝ᵥ (C *ᵥ nodeValues n e w) := by
  rw [matrix_energy (n := n) (k := 1) _ he rfl]
  simp [dotProduct, mulVec, Fintype.sum_prod_type, localField, nodeValues]

theorem scalar_symm {C : Matrix (Fin n) (Fin n) ℝ} (he : gather x e n 2 = some X) (hC : Cᵀ = C) :
    SymmetricCalls [.matrix (flatM (k := 1) (C.submatrix Prod.fst Prod.fst)) (interTable 1 n [0]) e] := by
  intro c hc
  rw [List.mem_singleton.1 hc]
  refine elem_sym (k := 1) (dl := [0]) (x := x) (e := e)
    (core := fun _ : Matrix (Fin n) (Fin 2) ℝ => some (C.submatrix Prod.fst Prod.fst)) rfl ⟨X, _, he, rfl, rfl⟩ ?_
  rintro X' A' hA'
  obtain rfl := Option.some.inj hA'
  rw [Matrix.transpose_submatrix, hC]

end

theorem symmetricCalls_map {α : Type} {l : List α} {f : α → AsmCall ℝ} (h : ∀ a ∈ l, SymmetricCalls [f a]) :
    SymmetricCalls (l.map f) := by
  intro c hc
  obtain ⟨a, ha, rfl⟩ := List.mem_map.1 hc
  exact h a ha _ (by simp)

theorem energy_nonneg_map {α : Type} {l : List α} {f : α → AsmCall ℝ} {v : ℕ → ℕ → ℝ}
    (h : ∀ a ∈ l, 0 ≤ callEnergy (f a) v v) : 0 ≤ energy (l.map f) v v := by
  rw [energy_eq, List.map_map]
  refine List.sum_nonneg fun r hr => ?_
  obtain ⟨a, ha, rfl⟩ := List.mem_map.1 hr
  exact h a ha

/-! ### Heat conduction -/

section
variable {x : List (Vec ℝ)} {elements : List (List ℕ)} {alpha rho c t : ℝ} {items : List (TimeItem ℝ)}

/-- The elements of the heat program. -/
theorem heatTimeItems_some (h : heatTimeItems x elements alpha rho c t = some items) :
    (∀ it ∈ items, ∃ e ∈ elements, ∃ X A B, ScalarItem x e X B A it ∧ it.Fe = none ∧
      heatTransfer SF.triangle3 IC.gauss1Triangle X alpha t = some A ∧
      heatCapacity SF.triangle3 IC.gauss1Triangle X rho c t = some B) ∧
    ∀ e ∈ elements, ∃ it ∈ items, it.element = e := by
  have key : ∀ e it, (do
      let (Ke, _) ← elemM 1 (scalarCore fun X => heatTransfer SF.triangle3 IC.gauss1Triangle X alpha t) e [0] x
      let (Ce, nte) ← elemM 1 (scalarCore fun X => heatCapacity SF.triangle3 IC.gauss1Triangle X rho c t) e [0] x
      return (⟨Ce, Ke, none, nte, e⟩ : TimeItem ℝ) : Option (TimeItem ℝ)) = some it →
      ∃ X A B, ScalarItem x e X B A it ∧ it.Fe = none ∧
        heatTransfer SF.triangle3 IC.gauss1Triangle X alpha t = some A ∧
        heatCapacity SF.triangle3 IC.gauss1Triangle X rho c t = some B := by
    intro e it h1
    simp only [Option.bind_eq_bind, Option.pure_def, Option.bind_eq_some_iff, Prod.exists, Option.some.injEq] at h1
    obtain ⟨Ke, n1, h1, Ce, n2, h2, rfl⟩ := h1
    obtain ⟨-, X, A', hX, hA, rfl, rfl⟩ := elemM_eq_some.1 h1
    obtain ⟨-, X', B', hX', hB, rfl, rfl⟩ := elemM_eq_some.1 h2
    obtain rfl := Option.some.inj (hX.symm.trans hX')
    obtain ⟨A, hA', rfl⟩ := Option.map_eq_some_iff.1 hA
    obtain ⟨B, hB', rfl⟩ := Option.map_eq_some_iff.1 hB
    exact ⟨X, A, B, ⟨hX, rfl, rfl, rfl, rfl⟩, rfl, hA', hB'⟩
  unfold heatTimeItems at h
  refine ⟨fun it hit => ?_, fun e he => ?_⟩
  · obtain ⟨e, he, h1⟩ := mapM_mem h it hit
    exact ⟨e, he, key e it h1⟩
  · obtain ⟨it, hit, h1⟩ := mapM_mem_of h e he
    obtain ⟨X, A, B, h2, -⟩ := key e it h1
    exact ⟨it, hit, h2.element⟩

theorem heatTimeItems_isSome (hT : Triangles x elements) : (heatTimeItems x elements alpha rho c t).isSome := by
  refine mapM_isSome fun e he => ?_
  obtain ⟨h1, i, j, k, rfl, hp⟩ := hT e he
  obtain ⟨X, hX⟩ := triangle_coords h1 (n := 3) rfl
  rw [(elemM_eq_some (k := 1) (dl := [0])
      (core := scalarCore fun X => heatTransfer SF.triangle3 IC.gauss1Triangle X alpha t)).2
      ⟨rfl, X, _, hX, by rw [scalarCore, heatTransfer_eq_some.2 ⟨triangle_regular hX hp, rfl⟩]; rfl, rfl, rfl⟩,
    (elemM_eq_some (k := 1) (dl := [0])
      (core := scalarCore fun X => heatCapacity SF.triangle3 IC.gauss1Triangle X rho c t)).2
      ⟨rfl, X, _, hX, by rw [scalarCore, heatCapacity_eq_some.2 rfl]; rfl, rfl, rfl⟩]
  rfl

/-- The matrices of the heat program. -/
theorem heatTimeItems_spec (hT : Triangles x elements) (ha : 0 < alpha) (ht : 0 < t) (hrc : 0 ≤ rho * c)
    (h : heatTimeItems x elements alpha rho c t = some items) :
    (∀ it ∈ items, it.Sound (freeTable x.length 1) (zeroField x.length 1)) ∧
    SymmetricCalls (items.map TimeItem.mass) ∧ SymmetricCalls (items.map TimeItem.stiff) ∧
    (∀ it ∈ items, ∀ v, 0 ≤ callEnergy it.mass v v ∧ 0 ≤ callEnergy it.stiff v v ∧
      (callEnergy it.stiff v v = 0 → ∀ m ∈ it.element, ∀ m' ∈ it.element, v m 0 = v m' 0)) ∧
    (∀ w, energy (items.map TimeItem.stiff) (fun _ _ => 1) w = 0) ∧
    (∀ it ∈ items, it.Fe = none) := by
  have h1 := (heatTimeItems_some h).1
  refine ⟨fun it hit => ?_, symmetricCalls_map fun it hit => ?_, symmetricCalls_map fun it hit => ?_,
    fun it hit v => ?_, fun w => ?_, fun it hit => ?_⟩
  · obtain ⟨e, he, X, A, B, hs, hF, -, -⟩ := h1 it hit
    exact hs.sound (fun m hm => by rw [nodal_zeroField hm (by norm_num)]; rfl) (by simp [hF])
  · obtain ⟨e, he, X, A, B, hs, -, hA, hB⟩ := h1 it hit
    rw [hs.mass_call]
    exact scalar_symm hs.coords (C32_heatCapacity hB)
  · obtain ⟨e, he, X, A, B, hs, -, hA, hB⟩ := h1 it hit
    rw [hs.stiff_call]
    exact scalar_symm hs.coords (C32_heatTransfer hA)
  · obtain ⟨e, he, X, A, B, hs, -, hA, hB⟩ := h1 it hit
    have hl := gather_length hs.coords
    obtain ⟨-, i, j, k, rfl, hp⟩ := hT e he
    have hpos : ∀ g, 0 < measure2 SF.triangle3 IC.gauss1Triangle X g := fun g => by
      rw [triangle_measure hs.coords]; linarith
    rw [hs.mass_call, hs.stiff_call, hs.element, scalar_energy _ hl, scalar_energy _ hl]
    refine ⟨C34_heatCapacity (fun g => (hpos g).le) hrc ht.le hB _,
      C34_heatTransfer (fun g => (hpos g).le) ht.le ha.le hA _, fun hz => ?_⟩
    have h3 := heat_zero (by show 0 < 1; norm_num) hpos ha ht hA hz
    have h01 := h3 0 1
    have h12 := h3 1 2
    simp [nodeValues] at h01 h12
    intro m hm m' hm'
    simp at hm hm'
    rcases hm with rfl | rfl | rfl <;> rcases hm' with rfl | rfl | rfl <;> simp_all
  · rw [energy_eq, List.map_map]
    refine List.sum_eq_zero fun r hr => ?_
    obtain ⟨it, hit, rfl⟩ := List.mem_map.1 hr
    obtain ⟨e, he, X, A, B, hs, -, hA, hB⟩ := h1 it hit
    simp only [Function.comp_apply]
    rw [hs.stiff_call, scalar_energy _ (gather_length hs.coords), dotProduct_mulVec, ← mulVec_transpose,
      C32_heatTransfer hA, show nodeValues 3 e (fun _ _ => 1) = fun _ => 1 from rfl,
      C33_heatTransfer complete_triangle3 hA, zero_dotProduct]
  · obtain ⟨e, he, X, A, B, hs, hF, -, -⟩ := h1 it hit
    exact hF

end

/-- `M/dt + theta K` is positive if every node is linked to a node of given temperature. -/
theorem heat_positive {x : List (Vec ℝ)} {elements : List (List ℕ)} {bc : List ((ℕ × ℕ) × ℝ)}
    {alpha rho c t dt theta : ℝ} (hT : Triangles x elements) (ha : 0 < alpha) (ht : 0 < t) (hrc : 0 ≤ rho * c)
    (hdt : 0 < dt) (hth : 0 < theta) (hconn : ∀ m < x.length, Anchored elements (bc.map Prod.fst) m)
    {items : List (TimeItem ℝ)} (hi : heatTimeItems x elements alpha rho c t = some items) (v : ℕ → ℕ → ℝ)
    (hv : ∀ n d, ¬ IsFree (freeTable x.length 1) bc (n, d) → v n d = 0) (hne : ∃ n d, v n d ≠ 0) :
    0 < energy (items.map TimeItem.mass) v v / dt + theta * energy (items.map TimeItem.stiff) v v := by
  obtain ⟨-, -, -, s4, -, -⟩ := heatTimeItems_spec hT ha ht hrc hi
  have hm : 0 ≤ energy (items.map TimeItem.mass) v v := energy_nonneg_map fun it hit => (s4 it hit v).1
  have hk : 0 < energy (items.map TimeItem.stiff) v v := by
    refine energy_pos (fun c hc => ?_) fun hall => ?_
    · obtain ⟨it, hit, rfl⟩ := List.mem_map.1 hc
      exact (s4 it hit v).2.1
    · obtain ⟨m, j, hmj⟩ := hne
      refine hmj ?_
      by_cases hmm : m < x.length ∧ j < 1
      · have hj : j = 0 := by omega
        subst hj
        have : ∀ m, Anchored elements (bc.map Prod.fst) m → v m 0 = 0 := by
          intro m hA
          induction hA with
          | fixed hf => exact hv _ _ fun hc => (free_table.1 hc).2.2 hf
          | step he h1 h2 _ ih =>
            obtain ⟨it, hit, rfl⟩ := (heatTimeItems_some hi).2 _ he
            rw [(s4 it hit v).2.2 (hall _ (List.mem_map.2 ⟨it, hit, rfl⟩)) _ h1 _ h2]
            exact ih
        exact this m (hconn m hmm.1)
      · exact hv m j fun hc => hmm ⟨(free_table.1 hc).1, (free_table.1 hc).2.1⟩
  have := mul_pos hth hk
  have := div_nonneg hm hdt.le
  linarith

/-- **C112**: a step of the heat program succeeds.  On a mesh of triangles of positive area where every node is linked
to a node of given temperature every step with positive `dt` and `theta` computes the temperatures, whatever the
current temperatures are, unless the right-hand side vanishes. -/
theorem C112_heat_solves (x : List (Vec ℝ)) (elements : List (List ℕ)) (bc : List ((ℕ × ℕ) × ℝ))
    (alpha rho c t dt theta : ℝ) (hT : Triangles x elements) (ha : 0 < alpha) (ht : 0 < t) (hrc : 0 ≤ rho * c)
    (hdt : 0 < dt) (hth : 0 < theta) (hconn : ∀ m < x.length, Anchored elements (bc.map Prod.fst) m)
    (hN : x.length ≤ 100000) (w : List (Vec ℝ)) (t₁ : List (List ℤ))
    (hset : setDirichlet (zeroField x.length 1) (freeTable x.length 1) bc = some (w, t₁)) (u : List (Vec ℝ))
    (hu : SameDofs (zeroField x.length 1) u) :
    ∃ items, heatTimeItems x elements alpha rho c t = some items ∧
      ((∃ p ∈ freeDofs (freeTable x.length 1) bc, timeResidual items dt theta (valOf u)
          (held (freeTable x.length 1) bc (valOf u)) p.1 p.2 ≠ 0) →
        ∃ u', thetaStep useScalingCG false dt theta (fun _ => heatTimeItems x elements alpha rho c t)
          (renumbering t₁).1 (renumbering t₁).2 u = some (u', true)) := by
  obtain ⟨items, hi⟩ := Option.isSome_iff_exists.1 (heatTimeItems_isSome (alpha := alpha) (rho := rho) (c := c) (t := t) hT)
  refine ⟨items, hi, fun hload => ?_⟩
  obtain ⟨s1, s2, s3, s4, -, -⟩ := heatTimeItems_spec hT ha ht hrc hi
  have hl := (C21_setDirichlet _ w _ t₁ bc hset).1
  obtain ⟨calls, c1, c2, c3, c4, c5⟩ := thetaCalls_spec (theta := theta) false hdt.ne' fun it hit => (s1 it hit).congr hl hu
  have hfree := isFree_marked hset
  obtain ⟨u', hsol⟩ := C108_succeeds useScalingCG useScalingCG_finds u t₁ [] calls c2 (by simp)
    (fun p hp => by
      rw [freeDofs_marked hset] at hp
      have hf : IsFree (freeTable x.length 1) bc (p.1, p.2) := of_decide_eq_true (List.mem_filter.1 hp).2
      obtain ⟨h1, h2, -⟩ := free_table.1 hf
      rw [← hu, nodal_zeroField h1 h2]; rfl)
    (c5 s2 s3)
    (fun v hv hne => by
      rw [c4]
      exact heat_positive hT ha ht hrc hdt hth hconn hi v (fun n d hn => hv n d fun hc => hn ((hfree n d).1 hc)) hne)
    (by
      rw [freeDofs_marked hset, held_given u _ bc t₁ hfree]
      obtain ⟨p, hp, hne⟩ := hload
      exact ⟨p, hp, by rw [c3]; exact hne⟩)
    (by
      rw [freeDofs_marked hset]
      exact le_trans free_table_length (by omega))
  refine ⟨u', ?_⟩
  unfold thetaStep
  simp only [hi, c1, Option.bind_eq_bind, Option.bind_some]
  exact hsol

/-- **C112**: on such a mesh there is exactly one exact step from every temperature field. -/
theorem C112_heat_exact (x : List (Vec ℝ)) (elements : List (List ℕ)) (bc : List ((ℕ × ℕ) × ℝ))
    (alpha rho c t dt theta : ℝ) (hT : Triangles x elements) (ha : 0 < alpha) (ht : 0 < t) (hrc : 0 ≤ rho * c)
    (hdt : 0 < dt) (hth : 0 < theta) (hconn : ∀ m < x.length, Anchored elements (bc.map Prod.fst) m)
    (items : List (TimeItem ℝ)) (hi : heatTimeItems x elements alpha rho c t = some items) (u : ℕ → ℕ → ℝ) :
    ∃! v, ExactStep items dt theta (freeTable x.length 1) bc u v :=
  C112_exact items dt theta _ _ bc (heatTimeItems_spec hT ha ht hrc hi).1
    (heat_positive hT ha ht hrc hdt hth hconn hi) u

/-- **C112**: a run of the heat program: initial field, boundary values, equation of each step. -/
theorem C112_heat_run (x : List (Vec ℝ)) (elements : List (List ℕ)) (bc : List ((ℕ × ℕ) × ℝ))
    (alpha rho c t dt theta : ℝ) (hdt : dt ≠ 0) (steps : ℕ) (T : List (Vec ℝ)) (conv : Bool)
    (h : heatDynamic x elements bc alpha rho c t dt theta steps = some (T, conv)) :
    ∃ U : ℕ → List (Vec ℝ), U steps = T ∧ (∀ m < x.length, nodal (U 0) m 0 = some ((lastValue bc m 0).getD 0)) ∧
      (∀ k ≤ steps, ∀ m v, lastValue bc m 0 = some v → nodal (U k) m 0 = some v) ∧
      (conv = true ↔ ∀ k < steps, ∀ items, heatTimeItems x elements alpha rho c t = some items →
        StepMet items dt theta (freeTable x.length 1) bc (valOf (U k)) (valOf (U (k + 1)))) := by
  obtain ⟨U, h1, h2, h3, -, h5⟩ := C112_run useScalingCG useScalingCG_certifies false dt theta hdt _ _ T _ bc steps conv
    (fun u items _ hi it hit => by
      obtain ⟨e, he, X, A, B, hs, hF, -, -⟩ := (heatTimeItems_some hi).1 it hit
      exact hs.sound (fun m hm => by rw [nodal_zeroField hm (by norm_num)]; rfl) (by simp [hF])) h
  refine ⟨U, h2, fun m hm => ?_, fun k hk m v hv => ?_, h5⟩
  · rw [h1, nodal_zeroField hm (by norm_num)]
    cases lastValue bc m 0 <;> rfl
  · rw [h3 k hk m 0, hv]
    · rfl
    · intro hf
      refine (free_table.1 hf).2.2 ?_
      unfold lastValue at hv
      obtain ⟨p, hp, -⟩ := Option.map_eq_some_iff.1 hv
      have h1 := List.mem_of_find?_eq_some hp
      have h2 := List.find?_some hp
      exact List.mem_map.2 ⟨p, List.mem_reverse.1 h1, by simpa using h2⟩

/-- **C112**: stability of the heat program.  For `theta ≥ 1/2`, whatever the step size, exact steps do not increase
the heat energy of the distance to the steady temperatures, and the distances add up. -/
theorem C112_heat_stable (x : List (Vec ℝ)) (elements : List (List ℕ)) (bc : List ((ℕ × ℕ) × ℝ))
    (alpha rho c t dt theta : ℝ) (hT : Triangles x elements) (ha : 0 < alpha) (ht : 0 < t) (hrc : 0 ≤ rho * c)
    (hdt : 0 < dt) (hth : 1 / 2 ≤ theta) (items : List (TimeItem ℝ))
    (hi : heatTimeItems x elements alpha rho c t = some items) (S : ℕ → ℕ → ℝ) (U : ℕ → ℕ → ℕ → ℝ)
    (hS : Steady items (freeTable x.length 1) bc S)
    (hb : ∀ n d, ¬ IsFree (freeTable x.length 1) bc (n, d) → U 0 n d = S n d) (steps : ℕ)
    (h : ∀ k < steps, ExactStep items dt theta (freeTable x.length 1) bc (U k) (U (k + 1))) :
    energy (items.map TimeItem.mass) (U steps - S) (U steps - S) +
      2 * dt * (∑ k ∈ Finset.range steps, energy (items.map TimeItem.stiff)
        (theta • U (k + 1) + (1 - theta) • U k - S) (theta • U (k + 1) + (1 - theta) • U k - S)) ≤
      energy (items.map TimeItem.mass) (U 0 - S) (U 0 - S) ∧
    ∀ v, 0 ≤ energy (items.map TimeItem.mass) v v ∧ 0 ≤ energy (items.map TimeItem.stiff) v v := by
  obtain ⟨s1, s2, s3, s4, -, -⟩ := heatTimeItems_spec hT ha ht hrc hi
  have hM0 : ∀ v, 0 ≤ energy (items.map TimeItem.mass) v v := fun v => energy_nonneg_map fun it hit => (s4 it hit v).1
  exact ⟨C112_dissipated items dt theta _ _ bc hdt hth s1 s2 hM0 S U hS hb steps h,
    fun v => ⟨hM0 v, energy_nonneg_map fun it hit => (s4 it hit v).2.1⟩⟩

/-- **C112**: without given temperatures exact steps of the heat program keep the heat content. -/
theorem C112_heat_content (x : List (Vec ℝ)) (elements : List (List ℕ)) (alpha rho c t dt theta : ℝ)
    (hT : Triangles x elements) (ha : 0 < alpha) (ht : 0 < t) (hrc : 0 ≤ rho * c) (hdt : dt ≠ 0)
    (items : List (TimeItem ℝ)) (hi : heatTimeItems x elements alpha rho c t = some items) (u v : ℕ → ℕ → ℝ)
    (h : ExactStep items dt theta (freeTable x.length 1) [] u v) :
    energy (items.map TimeItem.mass) (fun _ _ => 1) v = energy (items.map TimeItem.mass) (fun _ _ => 1) u := by
  obtain ⟨s1, -, -, -, s5, s6⟩ := heatTimeItems_spec hT ha ht hrc hi
  rw [C112_content items dt theta _ _ [] hdt s1 (fun _ _ => 1) u v (fun p hp hf => absurd ?_ hf) s5 h]
  · rw [List.map_map, List.sum_eq_zero, mul_zero, add_zero]
    intro r hr
    obtain ⟨it, hit, rfl⟩ := List.mem_map.1 hr
    simp [callLoad, TimeItem.source, s6 it hit, AsmCall.rhs, Vec.at?, Vec.size]
  · rw [free_table]
    have := mem_allDofs_iff.1 hp
    exact ⟨freeTable_lt this |>.1, freeTable_lt this |>.2, by simp⟩

/-- The stiffness calls are those of the static program. -/
theorem heatTimeItems_static {x : List (Vec ℝ)} {elements : List (List ℕ)} {alpha rho c t : ℝ}
    {items : List (TimeItem ℝ)} (h : heatTimeItems x elements alpha rho c t = some items) :
    heatCalls x elements alpha t = some (items.map TimeItem.stiff) := by
  unfold heatTimeItems at h
  unfold heatCalls matrixCalls
  induction elements generalizing items with
  | nil => simp only [List.mapM_nil, Option.pure_def, Option.some.injEq] at h; subst h; rfl
  | cons e es ih =>
    simp only [List.mapM_cons, Option.pure_def, Option.bind_eq_bind, Option.bind_eq_some_iff, Prod.exists,
      Option.some.injEq] at h
    obtain ⟨it, ⟨Ke, n1, hr, Ce, n2, hr2, rfl⟩, its, hits, rfl⟩ := h
    obtain ⟨-, X, A', -, -, -, rfl⟩ := elemM_eq_some.1 hr
    obtain ⟨-, X', B', -, -, -, rfl⟩ := elemM_eq_some.1 hr2
    rw [List.mapM_cons, ih (by simpa using hits)]
    simp [hr, TimeItem.stiff]

/-- The first step on the triangle with two given temperatures. -/
theorem corner_step : ∃ w t₁ u', setDirichlet (zeroField cornerNodes.length 1) (freeTable cornerNodes.length 1)
      [((0, 0), (300 : ℝ)), ((1, 0), 0)] = some (w, t₁) ∧
    thetaStep useScalingCG false (1 / 1000) (1 / 2) (fun _ => heatTimeItems cornerNodes [[0, 1, 2]] 5 7 3 1)
      (renumbering t₁).1 (renumbering t₁).2 w = some (u', true) := by
  obtain ⟨⟨w, t₁⟩, hset⟩ := Option.isSome_iff_exists.1 ((C21_defined (zeroField cornerNodes.length 1)
    (freeTable cornerNodes.length 1) [((0, 0), (300 : ℝ)), ((1, 0), 0)]).2 (by
      simp [cornerNodes, zeroField, freeTable, nodal, dofNum, Vec.at?, Vec.size]))
  have hu := setDirichlet_same hset
  obtain ⟨items, hi, hsolve⟩ := C112_heat_solves cornerNodes [[0, 1, 2]] [((0, 0), (300 : ℝ)), ((1, 0), 0)] 5 7 3 1
    (1 / 1000) (1 / 2) corner_triangles (by norm_num) (by norm_num) (by norm_num) (by norm_num) (by norm_num)
    corner_anchored (by simp [cornerNodes]) w t₁ hset w hu
  obtain ⟨u', h'⟩ := hsolve ⟨(2, 0), corner_free, by
    have h1 := corner_load (heatTimeItems_static hi)
    have hz := (C21_setDirichlet _ _ _ _ _ hset).2.2
    have e0 : held (freeTable cornerNodes.length 1) [((0, 0), (300 : ℝ)), ((1, 0), 0)] (valOf w) = given
        (zeroField cornerNodes.length 1) (freeTable cornerNodes.length 1) [((0, 0), (300 : ℝ)), ((1, 0), 0)] := by
      funext n d
      unfold held given
      split_ifs
      · rfl
      · show (nodal w n d).getD 0 = _
        rw [(hz n d).2]
    have e1 : valOf w = given (zeroField cornerNodes.length 1) (freeTable cornerNodes.length 1)
        [((0, 0), (300 : ℝ)), ((1, 0), 0)] := by
      funext n d
      show (nodal w n d).getD 0 = _
      rw [(hz n d).2]
      unfold given
      split_ifs with hf
      · have : lastValue [((0, 0), (300 : ℝ)), ((1, 0), 0)] n d = none := by
          unfold lastValue
          rw [Option.map_eq_none_iff, List.find?_eq_none]
          intro p hp hc
          exact hf.2 (List.mem_map.2 ⟨p, List.mem_reverse.1 hp, by simpa using hc⟩)
        rw [this]
        exact zeroField_val _ _ _ _
      · rfl
    have s6 := (heatTimeItems_spec corner_triangles (by norm_num) (by norm_num) (by norm_num) hi).2.2.2.2.2
    rw [e0, e1]
    unfold timeResidual
    have z1 : ∀ g : ℕ → ℕ → ℝ, (fun a b => (g a b - g a b) / (1 / 1000 : ℝ)) = fun _ _ => 0 := by
      intro g; funext a b; simp
    have z2 : ∀ g : ℕ → ℕ → ℝ, (fun a b => (1 / 2 : ℝ) * g a b + (1 - 1 / 2) * g a b) = g := by
      intro g; funext a b; ring
    have z3 : residual (items.map TimeItem.mass) (fun _ _ => (0 : ℝ)) 2 0 = 0 := by
      unfold residual
      rw [List.map_map]
      refine List.sum_eq_zero fun r hr => ?_
      obtain ⟨it, -, rfl⟩ := List.mem_map.1 hr
      simp [TimeItem.mass, AsmCall.rhs]
    have z4 : loadAt (items.map TimeItem.source) 2 0 = (0 : ℝ) := by
      unfold loadAt
      rw [List.map_map]
      refine List.sum_eq_zero fun r hr => ?_
      obtain ⟨it, hit, rfl⟩ := List.mem_map.1 hr
      simp [TimeItem.source, s6 it hit, AsmCall.rhs, Vec.at?, Vec.size]
    rw [z1, z2, z3, z4, zero_add, sub_zero]
    exact h1⟩
  exact ⟨w, t₁, u', hset, h'⟩

/-- The criterion of the program is met in this step. -/
example : ∃ T, heatDynamic cornerNodes [[0, 1, 2]] [((0, 0), (300 : ℝ)), ((1, 0), 0)] 5 7 3 1 (1 / 1000) (1 / 2) 1 =
      some (T, true) ∧ nodal T 0 0 = some 300 ∧ ∃ U items, StepMet items (1 / 1000) (1 / 2)
        (freeTable cornerNodes.length 1) [((0, 0), (300 : ℝ)), ((1, 0), 0)] (valOf U) (valOf T) := by
  obtain ⟨w, t₁, T, hset, hstep⟩ := corner_step
  have h : heatDynamic cornerNodes [[0, 1, 2]] [((0, 0), (300 : ℝ)), ((1, 0), 0)] 5 7 3 1 (1 / 1000) (1 / 2) 1 =
      some (T, true) := by
    unfold heatDynamic timeAnalysis
    rw [hset]
    simp only [Option.bind_eq_bind, Option.bind_some, thetaSteps, hstep]
    rfl
  obtain ⟨U, h1, -, h3, h4⟩ := C112_heat_run _ _ _ _ _ _ _ _ _ (by norm_num) _ _ _ h
  obtain ⟨items, hi⟩ := Option.isSome_iff_exists.1
    (heatTimeItems_isSome (alpha := 5) (rho := 7) (c := 3) (t := 1) corner_triangles)
  refine ⟨T, h, ?_, U 0, items, ?_⟩
  · rw [← h1]
    exact h3 1 le_rfl 0 300 (by simp [lastValue])
  · rw [← h1]
    exact h4.1 rfl 0 (by norm_num) items hi

/-- Any number of exact steps on the triangle with equal given temperatures exists and approaches them. -/
example (u : ℕ → ℕ → ℝ) (hu : ∀ n d, ¬ IsFree (freeTable cornerNodes.length 1) [((0, 0), (7 : ℝ)), ((1, 0), 7)] (n, d) →
      u n d = 7) (steps : ℕ) : ∃ (items : List (TimeItem ℝ)) (U : ℕ → ℕ → ℕ → ℝ), U 0 = u ∧
    heatTimeItems cornerNodes [[0, 1, 2]] 5 7 3 1 = some items ∧
    (∀ k, ExactStep items (1 / 10) 1 (freeTable cornerNodes.length 1) [((0, 0), (7 : ℝ)), ((1, 0), 7)] (U k) (U (k + 1))) ∧
    energy (items.map TimeItem.mass) (U steps - fun _ _ => 7) (U steps - fun _ _ => 7) ≤
      energy (items.map TimeItem.mass) (u - fun _ _ => 7) (u - fun _ _ => 7) := by
  obtain ⟨items, hi⟩ := Option.isSome_iff_exists.1
    (heatTimeItems_isSome (alpha := 5) (rho := 7) (c := 3) (t := 1) corner_triangles)
  have hex := fun u => (C112_heat_exact cornerNodes [[0, 1, 2]] [((0, 0), (7 : ℝ)), ((1, 0), 7)] 5 7 3 1 (1 / 10) 1
    corner_triangles (by norm_num) (by norm_num) (by norm_num) (by norm_num) (by norm_num) corner_anchored items hi
    u).exists
  choose next hnext using hex
  obtain ⟨s1, s2, s3, s4, s5, s6⟩ := heatTimeItems_spec corner_triangles (by norm_num) (by norm_num) (by norm_num) hi
  have := C112_heat_stable cornerNodes [[0, 1, 2]] [((0, 0), (7 : ℝ)), ((1, 0), 7)] 5 7 3 1 (1 / 10) 1
    corner_triangles (by norm_num) (by norm_num) (by norm_num) (by norm_num) (by norm_num) items hi (fun _ _ => 7)
    (fun k => next^[k] u) (fun p hp => ?_) hu steps (fun k _ => by
      rw [Function.iterate_succ_apply']
      exact hnext _)
  · refine ⟨items, fun k => next^[k] u, rfl, hi, fun k => by
      beta_reduce
      rw [Function.iterate_succ_apply']
      exact hnext _, le_trans (le_add_of_nonneg_right ?_) this.1⟩
    exact mul_nonneg (by norm_num) (Finset.sum_nonneg fun k _ => (this.2 _).2)
  · rw [residual_eq, List.map_map, List.sum_eq_zero, sub_zero]
    · have e : (fun _ _ => 7 : ℕ → ℕ → ℝ) = (7 : ℝ) • fun _ _ => 1 := by funext a b; simp
      rw [e, form_smul_right, form_symm s3, s5, mul_zero]
      unfold loadAt
      rw [List.map_map, List.sum_eq_zero]
      intro r hr
      obtain ⟨it, hit, rfl⟩ := List.mem_map.1 hr
      simp [TimeItem.source, s6 it hit, AsmCall.rhs, Vec.at?, Vec.size]
    · intro r hr
      obtain ⟨it, hit, rfl⟩ := List.mem_map.1 hr
      simp [callLoad, TimeItem.stiff, AsmCall.rhs]

/-- Without given temperatures the heat content of the triangle is kept. -/
example (u v : ℕ → ℕ → ℝ) (items : List (TimeItem ℝ)) (hi : heatTimeItems cornerNodes [[0, 1, 2]] 5 7 3 1 = some items)
    (h : ExactStep items (1 / 10) 1 (freeTable cornerNodes.length 1) [] u v) :
    energy (items.map TimeItem.mass) (fun _ _ => 1) v = energy (items.map TimeItem.mass) (fun _ _ => 1) u :=
  C112_heat_content cornerNodes [[0, 1, 2]] 5 7 3 1 (1 / 10) 1 corner_triangles (by norm_num) (by norm_num) (by norm_num)
    (by norm_num) items hi u v h

end Pansfem
