/-
The update of the level set function and of the shape.
-/
import Verif.Lemmas.LevelSetValue
import Verif.Props.C112_Reaction

noncomputable section

open Matrix

namespace Pansfem

theorem mapM_same {α β : Type} {f g : α → Option β} : ∀ {l : List α}, (∀ a ∈ l, f a = g a) → l.mapM f = l.mapM g
  | [], _ => rfl
  | a :: l, h => by
    rw [List.mapM_cons, List.mapM_cons, h a (by simp), mapM_same fun b hb => h b (by simp [hb])]

/-! ### The element matrices -/

theorem levelsetElem_eq {it : TimeItem ℝ} {t : List (List ℤ)} {phi : List (Vec ℝ)} {dt : ℝ} (hdt : dt ≠ 0)
    (h : it.Sound t phi) (hF : it.Fe ≠ none) : levelsetElem dt phi it = thetaElem dt 1 phi it := by
  obtain ⟨ue, h1, h2, -⟩ := C110_elementVector phi it.nte it.element h.massSq.1.le (fun p hp => (h.fits p hp).2)
    (h.massSq.2.1.nodup_iff.2 List.nodup_range) (fun p hp => h.massSq.lt p hp)
  obtain ⟨M, hM⟩ := exists_dense_size h.massWF h.massSq.2.2.1 h.massSq.2.2.2
  obtain ⟨N, hN⟩ := exists_dense_size h.stiffWF h.stiffSq.2.2.1 h.stiffSq.2.2.2
  obtain ⟨w, rfl⟩ := exists_densev_size h2
  obtain ⟨f, hf⟩ := Option.ne_none_iff_exists'.1 hF
  obtain ⟨g, rfl⟩ := exists_densev_size (h.source f hf)
  unfold levelsetElem thetaElem
  simp only [h1, hM, hN, hf, C01_mat_sdiv _ _ hdt, C01_mat_smul, C01_mat_add, C01_mat_sub, C01_mat_vec,
    C01_vec_add, Option.bind_eq_bind, Option.bind_some, Option.pure_def, one_smul, sub_self, zero_smul, sub_zero]

theorem levelsetCalls_eq {P : LevelSetProgram} {C lambda : ℝ} {TDN : List ℝ} {phi : List (Vec ℝ)}
    {items : List (TimeItem ℝ)} {t : List (List ℤ)} (hdt : P.dt ≠ 0)
    (hi : reactionItems P.x P.elements (P.tau * P.elements.length) (fun u _ => C * (u - lambda))
      (TDN.map fun a => ⟨[a]⟩) = some items) (hs : ∀ it ∈ items, it.Sound t phi) :
    levelsetCalls P C lambda TDN phi = thetaCalls false P.dt 1 phi items := by
  unfold levelsetCalls thetaCalls
  rw [hi]
  simp only [Option.bind_eq_bind, Option.bind_some]
  congr 1
  refine mapM_same fun it hit => ?_
  obtain ⟨e, he, h1⟩ := mapM_mem (reactionItems_eq.symm.trans hi) it hit
  obtain ⟨A, B, F, -, hF, -⟩ := (reactionItem_some h1).body
  rw [levelsetElem_eq hdt (hs it hit) (by rw [hF]; simp)]
  simp

/-! ### Scale -/

theorem levelsetScale_eq {P : LevelSetProgram} {TDN : List ℝ} (hl : TDN.length = P.x.length) (h0 : ∀ a ∈ TDN, 0 ≤ a)
    (hp : 0 < TDN.sum) : levelsetScale P TDN = some (P.elements.length / TDN.sum) := by
  unfold levelsetScale
  have : (List.range P.x.length).foldlM (fun s i => do return s + |← TDN[i]?|) (0 : ℝ) = some TDN.sum := by
    have h1 := foldlM_add (l := List.range P.x.length) (f := fun i => (TDN[i]?).map fun a : ℝ => |a|)
      (g := fun i => TDN[i]?.getD 0) (by
        intro i hi
        have hi' : i < TDN.length := by rw [hl]; exact List.mem_range.1 hi
        simp [List.getElem?_eq_getElem hi', abs_of_nonneg (h0 _ (List.getElem_mem hi'))]) 0
    have h2 : (List.range P.x.length).map (fun i => TDN[i]?.getD 0) = TDN := by
      refine List.ext_getElem (by simp [hl]) fun i a b => ?_
      simp [List.getElem?_eq_getElem b]
    rw [h2, zero_add] at h1
    rw [← h1]
    congr 1
    funext s i
    cases TDN[i]? <;> rfl
  simp only [Option.bind_eq_bind, Option.pure_def] at this ⊢
  rw [this, Option.bind_some, div?, if_neg hp.ne']

/-! ### Fields with one value at every node -/

/-- A field with one value at each of `N` nodes. -/
def ScalarField (N : ℕ) (phi : List (Vec ℝ)) : Prop := phi.length = N ∧ ∀ v ∈ phi, ∃ a, v = ⟨[a]⟩

theorem ScalarField.shaped {N : ℕ} {phi : List (Vec ℝ)} (h : ScalarField N phi) : Shaped phi (freeTable N 1) := by
  refine ⟨by rw [h.1]; simp [freeTable], fun n d => ⟨fun hs => ?_, fun hs => ?_⟩⟩
  · have hn : n < phi.length := by
      by_contra hn
      simp [nodal, hn] at hs
    refine freeTable_isSome (by rw [← h.1]; exact hn) ?_
    obtain ⟨a, ha⟩ := h.2 _ (List.getElem_mem hn)
    rw [nodal, List.getElem?_eq_getElem hn, ha] at hs
    simp only [Option.bind_eq_bind, Option.bind_some] at hs
    rw [vec_at_nat] at hs
    simpa using hs
  · obtain ⟨h1, h2⟩ := freeTable_lt hs
    have hn : n < phi.length := by rw [h.1]; exact h1
    obtain ⟨a, ha⟩ := h.2 _ (List.getElem_mem hn)
    have : d = 0 := by omega
    subst this
    simp [nodal, List.getElem?_eq_getElem hn, ha, Vec.at?, Vec.size]

theorem Shaped.scalar {N : ℕ} {phi : List (Vec ℝ)} (h : Shaped phi (freeTable N 1)) :
    phi = List.ofFn fun m : Fin N => ⟨[valOf phi m 0]⟩ := by
  have hl : phi.length = N := by rw [h.1]; simp [freeTable]
  refine List.ext_getElem (by simp [hl]) fun m h1 h2 => ?_
  have hm : m < N := by omega
  have hk : ∀ d, (nodal phi m d).isSome ↔ d < 1 := fun d =>
    (h.2 m d).trans ⟨fun hs => (freeTable_lt hs).2, fun hd => freeTable_isSome hm hd⟩
  have hv : ∀ d : ℕ, nodal phi m d = (phi[m]).values[d]? := by
    intro d
    rw [nodal, List.getElem?_eq_getElem h1]
    simp only [Option.bind_eq_bind, Option.bind_some]
    exact vec_at_nat _ _
  have hlen : (phi[m]).values.length = 1 := by
    have a0 := (hk 0).2 (by omega)
    have a1 : ¬ (nodal phi m 1).isSome := fun hs => absurd ((hk 1).1 hs) (by omega)
    rw [hv] at a0 a1
    simp at a0 a1
    omega
  obtain ⟨a, ha⟩ := List.length_eq_one_iff.1 hlen
  have : valOf phi m 0 = a := by
    show (nodal phi m 0).getD 0 = a
    rw [hv, ha]
    rfl
  simp only [List.getElem_ofFn, this]
  cases hp : phi[m] with
  | mk l => rw [hp] at ha; exact congrArg Vec.mk ha

theorem valOf_ofFn {N m : ℕ} (a : ℕ → ℝ) (hm : m < N) : valOf (List.ofFn fun m : Fin N => (⟨[a m]⟩ : Vec ℝ)) m 0 = a m := by
  simp [valOf, nodal, hm, Vec.at?, Vec.size]

theorem clamp_field {N : ℕ} (a : ℕ → ℝ) : (List.ofFn fun m : Fin N => (⟨[a m]⟩ : Vec ℝ)).mapM clampEntry =
    some (List.ofFn fun m : Fin N => ⟨[max (min 1 (a m)) (-1)]⟩) := by
  rw [mapM_some (g := fun v : Vec ℝ => ⟨[max (min 1 (v.values[0]?.getD 0)) (-1)]⟩)]
  · rw [List.map_ofFn]
    rfl
  · intro v hv
    obtain ⟨m, rfl⟩ := List.mem_ofFn.1 hv
    rfl

theorem scalar_ofFn {N : ℕ} (a : ℕ → ℝ) : ScalarField N (List.ofFn fun m : Fin N => ⟨[a m]⟩) :=
  ⟨by simp, fun v hv => by obtain ⟨m, rfl⟩ := List.mem_ofFn.1 hv; exact ⟨_, rfl⟩⟩

/-! ### The update -/

section
variable {P : LevelSetProgram}

theorem dirichlet_bordered (h : P.Ok) {phi : List (Vec ℝ)} (hphi : ScalarField P.x.length phi) :
    ∃ phi₀ t₁, setDirichlet phi (freeTable P.x.length 1) P.phifixed = some (phi₀, t₁) ∧
      Shaped phi₀ (freeTable P.x.length 1) ∧ valOf phi₀ = bordered P phi := by
  obtain ⟨⟨phi₀, t₁⟩, h1⟩ := Option.isSome_iff_exists.1 ((C21_defined phi (freeTable P.x.length 1) P.phifixed).2
    fun r hr => by
      have := h.borderRange r hr
      exact ⟨(hphi.shaped.2 _ _).2 (freeTable_isSome this.1 this.2), freeTable_isSome this.1 this.2⟩)
  obtain ⟨-, l, hs⟩ := C21_setDirichlet _ _ _ _ _ h1
  refine ⟨phi₀, t₁, h1, ⟨l.trans hphi.shaped.1, fun n d => ?_⟩, ?_⟩
  · rw [← setDirichlet_same h1 n d]
    exact hphi.shaped.2 n d
  · funext n d
    show (nodal phi₀ n d).getD 0 = _
    rw [(hs n d).2, bordered]
    split_ifs with hm
    · obtain ⟨r, hr, e⟩ := List.mem_map.1 hm
      have hf : (P.phifixed.reverse.find? fun p => decide (p.1 = (n, d))).isSome := by
        rw [List.find?_isSome]
        exact ⟨r, List.mem_reverse.2 hr, by simp [e]⟩
      obtain ⟨r', hr'⟩ := Option.isSome_iff_exists.1 hf
      have := h.borderZero _ (List.mem_reverse.1 (List.mem_of_find?_eq_some hr'))
      simp [lastValue, hr', this]
    · have hf : P.phifixed.reverse.find? (fun p => decide (p.1 = (n, d))) = none := by
        rw [List.find?_eq_none]
        intro r hr
        simp only [decide_eq_true_eq]
        intro e
        exact hm (List.mem_map.2 ⟨r, List.mem_reverse.1 hr, e⟩)
      simp [lastValue, hf]
      rfl

theorem held_bordered {phi : List (Vec ℝ)} (hphi : ScalarField P.x.length phi) :
    held (freeTable P.x.length 1) P.phifixed (bordered P phi) = 0 := by
  funext n d
  unfold held bordered
  split_ifs with h1 h2
  · rfl
  · rfl
  · show (nodal phi n d).getD 0 = 0
    have : nodal phi n d = none := by
      rw [← Option.not_isSome_iff_eq_none, hphi.shaped.2]
      intro hs
      have := freeTable_lt hs
      exact h1 (free_table.2 ⟨this.1, this.2, h2⟩)
    rw [this]
    rfl

/-- The update divides zero by zero if the right-hand side vanishes, and succeeds otherwise. -/
theorem levelsetUpdate_spec (h : P.Ok) {phi : List (Vec ℝ)} (hphi : ScalarField P.x.length phi) {t : ℕ} {str : List ℝ}
    {v : LevelSetValue} (hv : v.Sound P t str) :
    ∃ items, LevelSetEquation P v items ∧
      ((∀ p ∈ freeDofs (freeTable P.x.length 1) P.phifixed,
        timeResidual items P.dt 1 (bordered P phi) 0 p.1 p.2 = 0) → levelsetUpdate P phi v = none) ∧
      ((∃ p ∈ freeDofs (freeTable P.x.length 1) P.phifixed,
        timeResidual items P.dt 1 (bordered P phi) 0 p.1 p.2 ≠ 0) → ∃ raw phi',
          levelsetUpdate P phi v = some (raw, phi', true) ∧
          StepMet items P.dt 1 (freeTable P.x.length 1) P.phifixed (bordered P phi) (valOf raw) ∧
          (∀ r ∈ P.phifixed, valOf raw r.1.1 r.1.2 = 0) ∧
          phi' = List.ofFn fun m : Fin P.x.length => ⟨[max (min 1 (valOf raw m 0)) (-1)]⟩) := by
  have hl : v.TDN.length = P.x.length := by rw [hv.averaged, List.length_ofFn]
  have hTDN : ScalarField P.x.length (v.TDN.map fun a => ⟨[a]⟩) := by
    refine ⟨by simp [hl], fun w hw => ?_⟩
    obtain ⟨a, -, rfl⟩ := List.mem_map.1 hw
    exact ⟨a, rfl⟩
  have hsome : ∀ {u : List (Vec ℝ)}, Shaped u (freeTable P.x.length 1) → ∀ m < P.x.length, (nodal u m 0).isSome :=
    fun hu m hm => (hu.2 m 0).2 (freeTable_isSome hm (by norm_num))
  obtain ⟨items, hi⟩ := Option.isSome_iff_exists.1 (reactionItems_isSome (D := P.tau * P.elements.length)
    (f := fun u _ => P.elements.length / v.TDN.sum * (u - v.lambda)) h.quads (hsome hTDN.shaped))
  have hD : 0 ≤ P.tau * P.elements.length := mul_nonneg h.diffusion (Nat.cast_nonneg _)
  obtain ⟨phi₀, t₁, d1, d2, d3⟩ := dirichlet_bordered h hphi
  have hlen := (C21_setDirichlet _ _ _ _ _ d1).1
  have hs := reaction_sound hi (hsome d2)
  have hs₁ : ∀ it ∈ items, it.Sound t₁ phi₀ := fun it hit => (hs it hit).congr hlen fun _ _ => rfl
  have hcalls := levelsetCalls_eq (P := P) (phi := phi₀) h.step.ne' hi hs₁
  obtain ⟨calls, c1, c2, c3, c4, c5⟩ := thetaCalls_spec (theta := 1) false h.step.ne' hs₁
  have hgiven : given phi₀ t₁ [] = 0 := by
    rw [held_given phi₀ (freeTable P.x.length 1) P.phifixed t₁ (isFree_marked d1), d3, held_bordered hphi]
  have hres : ∀ w n d, residual calls w n d = timeResidual items P.dt 1 (bordered P phi) w n d := by
    intro w n d
    rw [c3, d3]
  have hup : levelsetUpdate P phi v = (staticAnalysis useScalingCG phi₀ t₁ [] calls).bind fun r =>
      (r.1.mapM clampEntry).bind fun phi' => some (r.1, phi', r.2) := by
    unfold levelsetUpdate
    rw [levelsetScale_eq hl hv.signs.2.1 hv.signs.2.2]
    simp only [Option.bind_eq_bind, Option.bind_some, d1, hcalls, c1, Option.pure_def]
    rfl
  have hfd := freeDofs_marked d1
  refine ⟨items, hi, fun h0 => ?_, fun h0 => ?_⟩
  · rw [hup, C108_unloaded useScalingCG useScalingCG_breaks phi₀ t₁ [] calls c2]
    · rfl
    · intro p hp
      rw [hgiven, hres]
      exact h0 p (by rw [← hfd]; exact hp)
  · obtain ⟨s2, s3, -⟩ := reaction_matrices h.quads hD hi
    obtain ⟨raw, hsol⟩ := C108_succeeds useScalingCG useScalingCG_finds phi₀ t₁ [] calls c2 (by simp)
      (fun p hp => by
        rw [hfd] at hp
        have hf : IsFree (freeTable P.x.length 1) P.phifixed (p.1, p.2) := of_decide_eq_true (List.mem_filter.1 hp).2
        obtain ⟨h1, h2, -⟩ := free_table.1 hf
        exact (d2.2 _ _).2 (freeTable_isSome h1 h2))
      (c5 s2 s3) (fun w hw hne => by
        rw [c4]
        refine reaction_positive h.quads hD h.step zero_le_one h.used hi w (fun n d hn => hw n d fun hf => hn ?_) hne
        have := free_table.1 ((isFree_marked d1 n d).1 hf)
        exact free_table.2 ⟨this.1, this.2.1, by simp⟩)
      (by
        obtain ⟨p, hp, hne⟩ := h0
        exact ⟨p, by rw [hfd]; exact hp, by rw [hgiven, hres]; exact hne⟩)
      (by
        rw [hfd]
        exact le_trans free_table_length (by have := h.size; omega))
    obtain ⟨-, r2, r3⟩ := C108_result useScalingCG useScalingCG_certifies phi₀ raw t₁ [] calls true c2 hsol
    have hsh := analysis_shaped d2 hsol
    have hraw := hsh.scalar
    refine ⟨raw, _, ?_, ?_, ?_, rfl⟩
    · rw [hup, hsol, Option.bind_some]
      dsimp only
      rw [show raw.mapM clampEntry = _ from (congrArg (List.mapM clampEntry) hraw).trans (clamp_field fun m => valOf raw m 0)]
      rfl
    · have := r3.1 rfl
      rw [hgiven, hfd] at this
      unfold StepMet dofNorm
      rw [held_bordered hphi]
      simpa only [dofNorm, hres] using this
    · intro r hr
      have hmem : (r.1.1, r.1.2) ∈ P.phifixed.map Prod.fst := List.mem_map_of_mem hr
      have hnum : dofNum t₁ r.1.1 r.1.2 = some (-1) := by
        rw [((C21_setDirichlet _ _ _ _ _ d1).2.2 _ _).1, if_pos hmem]
      have := r2 r.1.1 r.1.2 hnum rfl
      show (nodal raw r.1.1 r.1.2).getD 0 = 0
      rw [this]
      have e := congrFun (congrFun d3 r.1.1) r.1.2
      rw [bordered, if_pos hmem] at e
      exact e

/-! ### The shape -/

theorem shapeOf_eq (h : P.Ok) {phi : List (Vec ℝ)} (hphi : ScalarField P.x.length phi) :
    shapeOf P phi = some (P.elements.map fun e =>
      if (e.map fun m => valOf phi m 0).sum / (e.length : ℝ) < 0 then (0 : ℝ) else 1) := by
  unfold shapeOf
  have h1 : phi.mapM (fun v => v.values[0]?) = some (phi.map fun v => v.values[0]?.getD 0) := by
    refine mapM_some fun v hv => ?_
    obtain ⟨a, rfl⟩ := hphi.2 v hv
    rfl
  rw [h1]
  simp only [Option.bind_eq_bind, Option.bind_some]
  rw [C42_elemental (K := ℝ) (fun m => valOf phi m 0)]
  · simp only [Option.bind_some, Option.pure_def, List.map_map]
    refine congrArg some (List.map_congr_left fun e _ => ?_)
    simp only [Function.comp_apply, zero_add, smul_eq_mul, inv_mul_eq_div]
  · intro e he
    obtain ⟨p1, p2, -⟩ := quads_parts h.quads e he
    refine ⟨fun hn => by rw [hn] at p1; simp at p1, fun k hk => ?_⟩
    have hkx : k < phi.length := by
      rw [hphi.1]
      exact nodal_lt (p2 k hk 0 (by norm_num))
    obtain ⟨a, ha⟩ := hphi.2 _ (List.getElem_mem hkx)
    simp [List.getElem?_eq_getElem hkx, ha, valOf, nodal, Vec.at?, Vec.size]

end

end Pansfem
