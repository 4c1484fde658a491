/-
The evaluation of a shape in the level set program.
-/
import Verif.Spec.ProgramLevelSet
import Verif.Lemmas.QuadDesign

noncomputable section

open Matrix

namespace Pansfem

/-! ### Material -/

theorem topologicalMaterial_eq {E0 nu : ℝ} (hE : 0 < E0) (h1 : -1 < nu) (h2 : nu < 1) (h3 : 2 * nu ≠ 1) :
    ∃ E c, topologicalMaterial E0 nu = some (E, c) ∧ 0 < E ∧ -1 < c ∧ c < 1 ∧
      E * (c / (1 - c ^ 2)) =
        -1.5 * (1 - nu) * (1 - 14 * nu + 15 * nu ^ 2) * E0 / ((1 + nu) * (7 - 5 * nu) * (1 - 2 * nu) ^ 2) ∧
      E * (1 / (2 * (1 + c))) = 7.5 * (1 - nu) * E0 / ((1 + nu) * (7 - 5 * nu)) := by
  have a1 : 0 < 1 + nu := by linarith
  have a2 : 0 < 7 - 5 * nu := by linarith
  have a3 : 0 < 1 - nu := by linarith
  have a4 : 0 < (1 - 2 * nu) ^ 2 := by
    have : 1 - 2 * nu ≠ 0 := fun h => h3 (by linarith)
    positivity
  set A1 := -1.5 * (1 - nu) * (1 - 14 * nu + 15 * nu ^ 2) * E0 / ((1 + nu) * (7 - 5 * nu) * (1 - 2 * nu) ^ 2) with hA1
  set A2 := 7.5 * (1 - nu) * E0 / ((1 + nu) * (7 - 5 * nu)) with hA2
  have p2 : 0 < A2 := by positivity
  have p12 : 0 < A1 + A2 := by
    have : A1 + A2 = 1.5 * (1 - nu) * E0 * (4 - 6 * nu + 5 * nu ^ 2) / ((1 + nu) * (7 - 5 * nu) * (1 - 2 * nu) ^ 2) := by
      rw [hA1, hA2, div_add_div _ _ (by positivity) (by positivity), div_eq_div_iff (by positivity) (by positivity)]
      ring
    rw [this]
    have : 0 < 4 - 6 * nu + 5 * nu ^ 2 := by nlinarith [sq_nonneg (nu - 3 / 5)]
    positivity
  have p3 : 0 < A1 + 2 * A2 := by linarith
  have c1 : -1 < A1 / (A1 + 2 * A2) := by rw [lt_div_iff₀ p3]; linarith
  have c2 : A1 / (A1 + 2 * A2) < 1 := by rw [div_lt_one p3]; linarith
  set c := A1 / (A1 + 2 * A2) with hc
  have hcA : c * (A1 + 2 * A2) = A1 := by rw [hc]; field_simp
  have b1 : 0 < 1 + c := by linarith
  have b2 : 0 < 1 - c := by linarith
  have b3 : 0 < 1 - c ^ 2 := by nlinarith
  refine ⟨(A1 + 2 * A2) * (1 - c ^ 2), c, ?_, mul_pos p3 b3, c1, c2, ?_, ?_⟩
  · have e1 : topologicalA1 E0 nu = some A1 := by
      rw [topologicalA1, div?, if_neg (by positivity)]
    have e2 : topologicalA2 E0 nu = some A2 := by
      rw [topologicalA2, div?, if_neg (by positivity)]
    unfold topologicalMaterial
    simp only [e1, e2, Option.bind_eq_bind, Option.bind_some, div?, if_neg p3.ne', Option.pure_def, ← hc]
  · rw [mul_assoc, mul_div_cancel₀ _ b3.ne', mul_comm, hcA]
  · have : (A1 + 2 * A2) * (1 - c ^ 2) * (1 / (2 * (1 + c))) = (A1 + 2 * A2) * (1 - c) / 2 := by
      field_simp
      ring
    rw [this]
    linarith

/-! ### Energies -/

section
variable {x : List (Vec ℝ)} {elements : List (List ℕ)} {V : ℝ}

theorem stress_energy (h1 : -1 < V) (h2 : V < 1) (hQ : Quads x elements) {e : List ℕ} (he : e ∈ elements)
    (v : ℕ → ℕ → ℝ) : baseForm (stressCore V 1) [0, 1] x e v v =
      isotropicEnergy (V / (1 - V ^ 2)) (1 / (2 * (1 + V))) x e v := by
  obtain ⟨X, hX, hA, -, -⟩ := (linear_stress h1 h2 zero_le_one hQ).mat he
  obtain ⟨D, hD, h⟩ := planeStressStiffness_eq_some.1 hA
  obtain ⟨hV, rfl⟩ := planeStressD_eq_some.1 hD
  obtain ⟨hr, hK⟩ := (planeStiffness_eq_some _ _ _).1 h
  rw [baseForm_apply, hK, dot_sum_congr_transform]
  obtain rfl := gather_coords hX
  refine Finset.sum_congr rfl fun g _ => ?_
  rw [mul_one, planeB_mulVec, Matrix.smul_mulVec, dotProduct_smul, form_planeStressD0, smul_eq_mul]
  have hl : (localField (n := 4) (k := 2) [0, 1] e v) = fun p : Fin 4 × Fin 2 => v (e[(p.1 : ℕ)]?.getD 0) p.2 := by
    funext p
    obtain ⟨i, j⟩ := p
    match j with
    | 0 => rfl
    | 1 => rfl
  rw [hl]
  congr 1
  dsimp only
  generalize strain2 (K := ℝ) (n := 4) _ _ = s
  have b1 : 1 + V ≠ 0 := by linarith
  have b2 : 1 - V ≠ 0 := by linarith
  have b3 : (1 - V ^ 2) ≠ 0 := by
    rw [show 1 - V ^ 2 = (1 - V) * (1 + V) by ring]
    exact mul_ne_zero b2 b1
  rw [show 1 - V ^ 2 = (1 - V) * (1 + V) by ring] at *
  field_simp
  ring

theorem isotropic_scale (c a b : ℝ) (x : List (Vec ℝ)) (e : List ℕ) (v : ℕ → ℕ → ℝ) :
    c * isotropicEnergy a b x e v = isotropicEnergy (c * a) (c * b) x e v := by
  unfold isotropicEnergy
  rw [Finset.mul_sum]
  refine Finset.sum_congr rfl fun g _ => ?_
  dsimp only
  ring

end

theorem elementWork_eq {it : ElemData ℝ} {t : List (List ℤ)} {u : List (Vec ℝ)} (h : it.Square)
    (hf : it.call.Fits t u) : elementWork u it = some (callEnergy it.call (valOf u) (valOf u)) := by
  obtain ⟨ue, f, h1, h2, h3⟩ := element_work h hf
  have h4 := h3 1
  rw [vec_smul_eq, Option.bind_some, one_mul] at h4
  simp only [mul_one, List.map_id'] at h4
  unfold elementWork
  simp only [h1, h2, Option.bind_eq_bind, Option.bind_some]
  exact h4

theorem topologicalDerivative_eq {it : ElemData ℝ} {t : List (List ℤ)} {u : List (Vec ℝ)} (h : it.Square)
    (hf : it.call.Fits t u) (str : ℝ) : topologicalDerivative str u it =
      some ((1.0e-4 + str * (1 - 1.0e-4)) * callEnergy it.call (valOf u) (valOf u)) := by
  obtain ⟨ue, f, h1, h2, h3⟩ := element_work h hf
  have h4 := h3 (1.0e-4 + str * (1 - 1.0e-4))
  rw [vec_smul_eq, Option.bind_some] at h4
  unfold topologicalDerivative
  simp only [h1, h2, Option.bind_eq_bind, Option.bind_some, vec_smul_eq]
  exact h4

theorem foldlM_add {α : Type} {f : α → Option ℝ} {g : α → ℝ} {l : List α} (h : ∀ a ∈ l, f a = some (g a)) (s : ℝ) :
    l.foldlM (fun s a => do return s + (← f a)) s = some (s + (l.map g).sum) := by
  induction l generalizing s with
  | nil => simp
  | cons a l ih =>
    rw [List.foldlM_cons, h a (by simp)]
    simp only [Option.bind_eq_bind, Option.bind_some, Option.pure_def]
    have := ih (fun b hb => h b (by simp [hb])) (s + g a)
    simp only [Option.bind_eq_bind, Option.pure_def] at this
    rw [this, List.map_cons, List.sum_cons, add_assoc]

theorem listMean_eq {l : List ℝ} {n : ℕ} (h : 0 < n) : listMean l n = some (l.sum / n) := by
  have : (n : ℝ) ≠ 0 := by positivity
  rw [listMean, div?, if_neg this, List.sum_eq_foldl]

/-! ### Volume -/

theorem volumeTarget_eq {P : LevelSetProgram} (h : P.Ok) (t : ℕ) : ∃ ex, volumeTarget P 1 t = some ex ∧
    ex = P.Vmax + (1 - P.Vmax) * max 0 (1 - (t + 1) / P.nvol) ∧ 0 < ex := by
  have hn : P.nvol ≠ 0 := by have := h.passes; linarith
  refine ⟨_, ?_, rfl, ?_⟩
  · simp [volumeTarget, div?, hn]
  · have := mul_nonneg (sub_nonneg.2 h.volume.2) (le_max_left 0 (1 - ((t : ℝ) + 1) / P.nvol))
    linarith [h.volume.1]

/-! ### Sums over elements and nodes -/

theorem nonneg_sum_zero {l : List ℝ} (h : ∀ a ∈ l, 0 ≤ a) : l.sum = 0 ↔ ∀ a ∈ l, a = 0 := by
  induction l with
  | nil => simp
  | cons a l ih =>
    have h1 := h a (by simp)
    have h2 : 0 ≤ l.sum := List.sum_nonneg fun b hb => h b (by simp [hb])
    rw [List.sum_cons, add_eq_zero_iff_of_nonneg h1 h2, ih fun b hb => h b (by simp [hb])]
    simp

theorem received_get {TD : List ℝ} {elements : List (List ℕ)} {i : ℕ} (hi : i < elements.length)
    (hT : i < TD.length) {m : ℕ} (hm : m ∈ elements[i]) : TD[i] ∈ received TD elements m := by
  unfold received
  rw [List.mem_flatMap]
  refine ⟨(elements[i], TD[i]), ?_, ?_⟩
  · rw [List.mem_iff_getElem]
    exact ⟨i, by simp [hi, hT], by simp⟩
  · rw [List.mem_replicate]
    exact ⟨(List.count_pos_iff.2 hm).ne', rfl⟩

/-- **Evaluation**: every shape can be evaluated. -/
theorem levelsetEvaluate_sound {P : LevelSetProgram} (h : P.Ok) (t : ℕ) {str : List ℝ}
    (hs : IsShape P.elements.length str) : ∃ v, levelsetEvaluate P 1 t 0 str = some v ∧ v.Sound P t str := by
  obtain ⟨q1, q2, q3⟩ := h.poisson
  have hL := linear_stress (t := 1) q1 q2 zero_le_one h.quads
  have hc : ∀ i : Fin P.elements.length, 0 < coeff (levelsetModulus P.E0 P.Emin) str i := by
    intro i
    have hi : (i : ℕ) < str.length := by rw [hs.1]; exact i.2
    simp only [coeff, List.getElem?_map, List.getElem?_eq_getElem hi, Option.map_some, Option.getD_some]
    rcases hs.2 _ (List.getElem_mem hi) with e | e <;> rw [e, levelsetModulus]
    · linarith [h.moduli.1]
    · linarith [h.moduli.2]
  have hi : levelsetItems P str = some (baseItems (stressCore P.nu 1) [0, 1] P.x P.elements
      fun i => coeff (levelsetModulus P.E0 P.Emin) str i) :=
    designItems_eq hL (c := str.map (levelsetModulus P.E0 P.Emin)) (by rw [List.length_map, hs.1])
  obtain ⟨u, e1, e2, e3, e4, e5⟩ := core_analysis hL (fun c X A hA => C32_planeStress hA)
    (rigid_stress q1 q2 one_pos h.quads) h.held h.fixedRange h.fixedZero h.loadRange h.loaded h.size hc
  have hcoeff : ∀ i : Fin P.elements.length, coeff (levelsetModulus P.E0 P.Emin) str i =
      P.Emin + str[(i : ℕ)]?.getD 0 * (P.E0 - P.Emin) := by
    intro i
    have hi : (i : ℕ) < str.length := by rw [hs.1]; exact i.2
    simp [coeff, List.getElem?_eq_getElem hi, levelsetModulus]
  have hobj : (baseItems (stressCore P.nu 1) [0, 1] P.x P.elements
      fun i => coeff (levelsetModulus P.E0 P.Emin) str i).foldlM
        (fun s it => do return s + (← elementWork u it)) (0 : ℝ) =
      some (∑ i : Fin P.elements.length, coeff (levelsetModulus P.E0 P.Emin) str i *
        baseForm (stressCore P.nu 1) [0, 1] P.x P.elements[i] (valOf u) (valOf u)) := by
    rw [foldlM_add (g := fun it => callEnergy it.call (valOf u) (valOf u))]
    · rw [zero_add, ← baseItems_energy hL, energy_eq, List.map_map]
      rfl
    · intro it hit
      obtain ⟨e, he, a, rfl⟩ := mem_baseItems hit
      exact elementWork_eq (baseItem_call hL he a).1 (baseItem_fits hL he a e2)
  obtain ⟨E, c, m1, m2, m3, m4, m5, m6⟩ := topologicalMaterial_eq h.moduli.2 q1 q2 q3
  have hL' := linear_stress (t := 1) m3 m4 zero_le_one h.quads
  have htop : designItems 2 (fun E X => planeStressStiffness SF.square4 IC.gauss4Square X E c 1) [0, 1] P.x P.elements
      (P.elements.map fun _ => E) = some (baseItems (stressCore c 1) [0, 1] P.x P.elements fun _ => E) := by
    refine (designItems_eq hL' (by rw [List.length_map])).trans ?_
    congr 2
    funext i
    simp
  set TD : List ℝ := List.ofFn fun i : Fin P.elements.length => (0.0001 + str[(i : ℕ)]?.getD 0 * 0.9999) *
    (E * baseForm (stressCore c 1) [0, 1] P.x P.elements[i] (valOf u) (valOf u)) with hTD
  have hTDl : TD.length = P.elements.length := by rw [hTD, List.length_ofFn]
  have hTDm : ((List.range (baseItems (stressCore c 1) [0, 1] P.x P.elements fun _ => E).length).mapM fun i => do
      topologicalDerivative (← str[i]?) u (← (baseItems (stressCore c 1) [0, 1] P.x P.elements fun _ => E)[i]?)) =
      some TD := by
    rw [List.length_ofFn]
    refine range_mapM fun i => ?_
    have hi : (i : ℕ) < str.length := by rw [hs.1]; exact i.2
    rw [List.getElem?_eq_getElem hi, List.getElem?_ofFn, dif_pos i.2]
    simp only [Option.bind_eq_bind, Option.bind_some, Option.getD_some, Fin.getElem_fin]
    rw [topologicalDerivative_eq (baseItem_call hL' (List.getElem_mem i.2) _).1
      (baseItem_fits hL' (List.getElem_mem i.2) _ e2), baseItem_energy hL' (List.getElem_mem i.2)]
    norm_num
  have hTD0 : ∀ a ∈ TD, 0 ≤ a := by
    intro a ha
    obtain ⟨i, rfl⟩ := List.mem_ofFn.1 ha
    have hi : (i : ℕ) < str.length := by rw [hs.1]; exact i.2
    have h0 := baseForm_nonneg hL' (List.getElem_mem i.2) (valOf u)
    refine mul_nonneg ?_ (mul_nonneg m2.le h0)
    rw [List.getElem?_eq_getElem hi, Option.getD_some]
    rcases hs.2 _ (List.getElem_mem hi) with e | e <;> rw [e] <;> norm_num
  have hmesh : MeshOk P.x.length TD P.elements := by
    refine ⟨fun e he k hk => ?_, hTDl.ge⟩
    obtain ⟨-, p2, -⟩ := quads_parts h.quads e he
    exact nodal_lt (p2 k hk 0 (by norm_num))
  obtain ⟨TDN, n1, n2, n3⟩ := C42_nodal (K := ℝ) hmesh h.used 0
  have hTDN : TDN = List.ofFn fun m : Fin P.x.length =>
      (received TD P.elements m).sum / (received TD P.elements m).length := by
    refine List.ext_getElem? fun m => ?_
    by_cases hm : m < P.x.length
    · rw [n3 m hm, List.getElem?_ofFn, dif_pos hm, zero_add, smul_eq_mul, inv_mul_eq_div]
    · rw [List.getElem?_eq_none (by omega), List.getElem?_eq_none (by rw [List.length_ofFn]; omega)]
  have hTDN0 : ∀ a ∈ TDN, 0 ≤ a := by
    intro a ha
    rw [hTDN] at ha
    obtain ⟨m, rfl⟩ := List.mem_ofFn.1 ha
    exact div_nonneg (List.sum_nonneg fun b hb => hTD0 b (received_mem hb)) (Nat.cast_nonneg _)
  -- some element has energy
  have hpos : 0 < TDN.sum := by
    refine lt_of_le_of_ne (List.sum_nonneg hTDN0) fun h0 => ?_
    have hall : ∀ a ∈ TDN, a = 0 := by
      have := (nonneg_sum_zero hTDN0).1 h0.symm
      exact this
    refine e5.ne' (Finset.sum_eq_zero fun i _ => ?_)
    have hne : (P.elements[(i : ℕ)]) ≠ [] := by
      intro hnil
      have := (quads_parts h.quads _ (List.getElem_mem i.2)).1
      rw [hnil] at this
      simp at this
    obtain ⟨m, hm⟩ := List.exists_mem_of_ne_nil _ hne
    have hmx : m < P.x.length := hmesh.nodes _ (List.getElem_mem i.2) m hm
    have hTi : (i : ℕ) < TD.length := by rw [hTDl]; exact i.2
    have hr := received_get i.2 hTi hm
    have hz : TDN[m]'(by omega) = 0 := hall _ (List.getElem_mem _)
    have hz' : (received TD P.elements m).sum / ((received TD P.elements m).length : ℝ) = 0 := by
      have := n3 m hmx
      rw [List.getElem?_eq_getElem (by omega), hz, zero_add, smul_eq_mul, inv_mul_eq_div] at this
      exact (Option.some.inj this).symm
    have hlen : ((received TD P.elements m).length : ℝ) ≠ 0 :=
      Nat.cast_ne_zero.2 (List.length_pos_of_mem hr).ne'
    have hsum := (div_eq_zero_iff.1 hz').resolve_right hlen
    have hTi0 : TD[(i : ℕ)] = 0 := by
      exact (nonneg_sum_zero fun b hb => hTD0 b (received_mem hb)).1 hsum _ hr
    have hval : (0.0001 + str[(i : ℕ)]?.getD 0 * 0.9999) *
        (E * baseForm (stressCore c 1) [0, 1] P.x P.elements[i] (valOf u) (valOf u)) = 0 := by
      refine Eq.trans ?_ hTi0
      simp only [hTD, List.getElem_ofFn]
    have hi' : (i : ℕ) < str.length := by rw [hs.1]; exact i.2
    have hw : (0.0001 + str[(i : ℕ)]?.getD 0 * 0.9999 : ℝ) ≠ 0 := by
      rw [List.getElem?_eq_getElem hi', Option.getD_some]
      rcases hs.2 _ (List.getElem_mem hi') with e | e <;> rw [e] <;> norm_num
    have hb := (mul_eq_zero.1 ((mul_eq_zero.1 hval).resolve_left hw)).resolve_left m2.ne'
    have hb' := stress_zero m3 m4 one_pos q1 q2 one_pos h.quads (List.getElem_mem i.2) hb
    simp only [Fin.getElem_fin]
    rw [hb', mul_zero]
  obtain ⟨ex, x1, x2, x3⟩ := volumeTarget_eq h t
  have hN : 0 < P.x.length := by
    obtain ⟨n, hn, -⟩ := h.loaded
    omega
  have hana : levelsetAnalysis P str = some (u, true) := by
    unfold levelsetAnalysis
    rw [hi]
    exact e1
  refine ⟨⟨u, true, ∑ i : Fin P.elements.length, coeff (levelsetModulus P.E0 P.Emin) str i *
      baseForm (stressCore P.nu 1) [0, 1] P.x P.elements[i] (valOf u) (valOf u), TD, TDN, str.sum / P.elements.length, ex,
    TDN.sum / P.x.length * Real.exp (P.p * ((str.sum / P.elements.length - ex) / ex + P.d))⟩, ?_, ?_⟩
  · unfold levelsetEvaluate
    simp only [hana, hi, Option.bind_eq_bind, Option.bind_some]
    simp only [Option.bind_eq_bind] at hobj hTDm
    rw [hobj]
    simp only [m1, htop, Option.bind_some, hTDm, n1, listMean_eq h.nonempty, x1, listMean_eq hN, div?, if_neg x3.ne',
      Option.pure_def]
  · refine ⟨rfl, e3, ⟨_, hi, e4⟩, ?_, e5, ?_, hTDN, ⟨hTD0, hTDN0, hpos⟩, rfl, x2, rfl⟩
    · dsimp only
      refine Finset.sum_congr rfl fun i _ => ?_
      rw [hcoeff i]
      exact congrArg _ (stress_energy q1 q2 h.quads (List.getElem_mem i.2) _)
    · dsimp only
      refine congrArg List.ofFn (funext fun i => ?_)
      have := stress_energy m3 m4 h.quads (List.getElem_mem i.2) (valOf u)
      simp only [Fin.getElem_fin]
      rw [this, isotropic_scale, m5, m6]

end Pansfem
