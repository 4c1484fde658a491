/-
The passes of the Newton loops.
-/
import Verif.Spec.ProgramNewton
import Verif.Lemmas.ProgramDynamic
import Verif.Props.C112_TimeStepping

namespace Pansfem

/-! ### Adding fields -/

section
variable {K : Type} [Ring K]

theorem densev_at_none {n : ℕ} (z : Fin n → K) {d : ℕ} (hd : ¬ d < n) : (densev z).at? (d : ℕ) = none := by
  rw [Vec.at?, if_neg]
  rintro ⟨-, h2⟩
  rw [densev_size] at h2
  exact hd (by exact_mod_cast h2)

theorem vec_add_spec {a b c : Vec K} (h : a.add b = some c) :
    b.size = a.size ∧ ∀ d : ℕ, c.at? d = (a.at? d).bind fun x => (b.at? d).map fun y => x + y := by
  have hs : a.size = b.size := by
    unfold Vec.add at h
    split_ifs at h with hs
    exact hs
  refine ⟨hs.symm, ?_⟩
  obtain ⟨n, hn⟩ : ∃ n, a.size = n := ⟨_, rfl⟩
  obtain ⟨x, rfl⟩ := exists_densev_size hn
  obtain ⟨y, rfl⟩ := exists_densev_size (hs.symm.trans hn)
  rw [C01_vec_add, Option.some.injEq] at h
  subst h
  intro d
  by_cases hd : d < n
  · rw [densev_at _ hd, densev_at _ hd, densev_at _ hd]
    rfl
  · rw [densev_at_none _ hd, densev_at_none _ hd]
    rfl

theorem addFields_spec : ∀ {u v w : List (Vec K)}, addFields u v = some w →
    SameDofs u v ∧ ∀ n d, nodal w n d = (nodal u n d).bind fun x => (nodal v n d).map fun y => x + y := by
  intro u
  induction u with
  | nil =>
    intro v w h
    cases v with
    | nil =>
      simp only [addFields, Option.some.injEq] at h
      subst h
      exact ⟨fun _ _ => rfl, fun _ _ => rfl⟩
    | cons b v => simp [addFields] at h
  | cons a u ih =>
    intro v w h
    cases v with
    | nil => simp [addFields] at h
    | cons b v =>
      simp only [addFields, Option.bind_eq_bind, Option.bind_eq_some_iff, Option.pure_def, Option.some.injEq] at h
      obtain ⟨c, hc, w', hw, rfl⟩ := h
      obtain ⟨h1, h2⟩ := vec_add_spec hc
      obtain ⟨i1, i2⟩ := ih hw
      refine ⟨fun n d => ?_, fun n d => ?_⟩
      · cases n with
        | zero =>
          have : ∀ (a b : Vec K), b.size = a.size → (a.at? (d : ℕ)).isSome = (b.at? (d : ℕ)).isSome := by
            intro a b hs
            have hv : b.values.length = a.values.length := hs
            unfold Vec.at?
            rw [hs]
            split_ifs
            · rw [Bool.eq_iff_iff]
              simp [hv]
            · rfl
          exact this a b h1
        | succ n => exact i1 n d
      · cases n with
        | zero => exact h2 d
        | succ n => exact i2 n d

theorem nodal_addFields {u v w : List (Vec K)} (h : addFields u v = some w) : SameDofs u w ∧
    ∀ n d, valOf w n d = valOf u n d + valOf v n d := by
  obtain ⟨h1, h2⟩ := addFields_spec h
  have hc : ∀ n d, (nodal u n d = none ∧ nodal v n d = none ∧ nodal w n d = none) ∨
      ∃ x y, nodal u n d = some x ∧ nodal v n d = some y ∧ nodal w n d = some (x + y) := by
    intro n d
    have := h1 n d
    have h3 := h2 n d
    cases hu : nodal u n d with
    | none =>
      cases hv : nodal v n d with
      | none => rw [hu] at h3; exact Or.inl ⟨rfl, rfl, h3⟩
      | some y => simp [hu, hv] at this
    | some x =>
      cases hv : nodal v n d with
      | none => simp [hu, hv] at this
      | some y => rw [hu, hv] at h3; exact Or.inr ⟨x, y, rfl, rfl, h3⟩
  refine ⟨fun n d => ?_, fun n d => ?_⟩
  · rcases hc n d with ⟨a, -, c⟩ | ⟨x, y, a, -, c⟩ <;> simp [a, c]
  · unfold valOf
    rcases hc n d with ⟨a, b, c⟩ | ⟨x, y, a, b, c⟩ <;> simp [a, b, c]

end

/-! ### One pass -/

section
variable {s : LinSolver} {own : Bool} {test : ℝ → Option Bool} {loop : List (Vec ℝ) → Option (List (AsmCall ℝ))}
  {z w u u' : List (Vec ℝ)} {t t₁ : List (List ℤ)} {bc : List ((ℕ × ℕ) × ℝ)} {calls : List (AsmCall ℝ)}

theorem dofNorm_sq (L : List (ℕ × ℕ)) (v : ℕ → ℕ → ℝ) : dofNorm L v ^ 2 = (L.map fun p => v p.1 p.2 ^ 2).sum :=
  Real.sq_sqrt (List.sum_nonneg fun r hr => by
    obtain ⟨p, -, rfl⟩ := List.mem_map.1 hr
    positivity)

theorem list_sq_range (F : List ℝ) : (F.map fun r => r * r).sum = ∑ I ∈ Finset.range F.length, obsF F I ^ 2 := by
  rw [Finset.sum_range, ← List.sum_ofFn]
  refine congrArg List.sum (List.ext_getElem (by simp) fun i h1 h2 => ?_)
  simp [obsF, sq]

theorem base_spread (hset : setDirichlet z t bc = some (w, t₁)) (hz : ∀ n d, valOf z n d = 0) :
    spread (renumbering t₁).1 (valOf (if own then u else z)) (fun _ => 0) = passBase own t bc (valOf u) := by
  funext n d
  have h0 : setDirichlet z t₁ [] = some (z, t₁) := rfl
  unfold spread passBase held
  have := (numOf_renumbered h0 n d).trans (isFree_marked hset n d)
  cases own with
  | true =>
    by_cases hf : IsFree t bc (n, d)
    · simp [hf, this.2 hf]
    · have h1 : numOf (renumbering t₁).1 n d = -1 := by
        by_contra hc
        exact hf (this.1 hc)
      simp [hf, h1]
  | false => simp [hz]

/-- One pass after `SetDirichlet` and `Renumbering`. -/
theorem newtonIter_spec (hs : s.Certifies) (hset : setDirichlet z t bc = some (w, t₁)) (hu : SameDofs z u)
    (hl : loop u = some calls) (hfit : ∀ c ∈ calls, c.Fits t z) (hz : ∀ n d, valOf z n d = 0)
    {r : Option (List (Vec ℝ) × Bool)}
    (h : newtonIter s own test loop (renumbering t₁).1 (renumbering t₁).2 z u = some r) :
    (r = none ∧ test (passNorm own t bc calls (valOf u) ^ 2) = some true) ∨
    ∃ u' conv, r = some (u', conv) ∧ test (passNorm own t bc calls (valOf u) ^ 2) = some false ∧ SameDofs z u' ∧
      (∀ n d, ¬ IsFree t bc (n, d) → nodal u' n d = nodal u n d) ∧
      (conv = true ↔ dofNorm (freeDofs t bc) (residual calls fun n d => passBase own t bc (valOf u) n d +
          (valOf u' n d - valOf u n d)) < 1 / 10 ^ 10 * passNorm own t bc calls (valOf u)) := by
  have hlen := (C21_setDirichlet z w t t₁ bc hset).1
  have h0 : setDirichlet z t₁ [] = some (z, t₁) := rfl
  set b := if own then u else z with hb
  have hsame : SameDofs z b := by
    rw [hb]; split_ifs
    · exact hu
    · exact fun _ _ => rfl
  have h0' : setDirichlet b t₁ [] = some (b, t₁) := rfl
  have hfit1 : ∀ c ∈ calls, c.Fits t₁ b := fun c hc =>
    ⟨fun p hp => ⟨by rw [isSome_of_lengths hlen]; exact ((hfit c hc).1 p hp).1, by
      rw [← hsame]; exact ((hfit c hc).1 p hp).2⟩, (hfit c hc).2⟩
  have hfit2 : ∀ c ∈ calls, c.Fits (renumbering t₁).1 b := fun c hc => fits_renumbered h0' (hfit1 c hc)
  have hN := renumbering_numbered t₁
  obtain ⟨A, F, h1, h2, h3, h4, h5⟩ := asmCalls_system hN hfit2
  have hnorm : ∀ v, dofNorm (freeDofs t bc) (residual calls v) =
      Real.sqrt (∑ I ∈ Finset.range (renumbering t₁).2, eqResidual (renumbering t₁).1 calls v I ^ 2) := by
    intro v
    rw [norm_renumbered h0' hfit1, freeDofs_marked hset]
  have hF : ∀ I, obsF F I = - eqResidual (renumbering t₁).1 calls (passBase own t bc (valOf u)) I := by
    intro I
    rw [h5, rhs_residual hN hfit2, base_spread hset hz]
  have hR : (F.map fun r => r * r).sum = passNorm own t bc calls (valOf u) ^ 2 := by
    rw [passNorm, hnorm, Real.sq_sqrt (Finset.sum_nonneg fun _ _ => by positivity), list_sq_range, h3]
    exact Finset.sum_congr rfl fun I _ => by rw [hF, neg_sq]
  rw [← h3] at h2
  obtain ⟨m, s', h6, h7⟩ := csr_of_ok h2
  unfold newtonIter at h
  simp only [hl, ← hb, h1, h6, Option.bind_eq_bind, Option.bind_some, hR] at h
  rw [Option.bind_eq_some_iff] at h
  obtain ⟨tb, ht, h⟩ := h
  cases tb with
  | true =>
    simp only [if_true, Option.pure_def, Option.some.injEq] at h
    exact Or.inl ⟨h.symm, ht⟩
  | false =>
    simp only [Bool.false_eq_true, if_false, Option.bind_eq_some_iff, Option.pure_def, Option.some.injEq,
      Prod.exists] at h
    obtain ⟨x, conv, hx, du, hdu, v, hv, rfl⟩ := h
    obtain ⟨k1, k2⟩ := nodal_addFields hv
    have hval : ∀ n d, valOf du n d = spread (renumbering t₁).1 (fun _ _ => 0) (obsF (List.ofFn x)) n d := by
      intro n d
      rw [valOf_disassembling hdu]
      congr 1
      funext n d
      exact hz n d
    refine Or.inr ⟨v, conv, rfl, ht, fun n d => by rw [hu, k1], fun n d hn => ?_, ?_⟩
    · have h8 : numOf (renumbering t₁).1 n d = -1 := by
        by_contra hc
        exact hn ((isFree_marked hset n d).1 ((numOf_renumbered h0 n d).1 hc))
      have h9 := hval n d
      rw [spread, if_pos h8] at h9
      have h10 := k2 n d
      rw [h9, add_zero] at h10
      have h11 := k1 n d
      unfold valOf at h10
      cases ha : nodal u n d with
      | none => rw [ha] at h11; simpa using h11.symm
      | some y =>
        rw [ha] at h11
        obtain ⟨y', hy'⟩ := Option.isSome_iff_exists.1 h11.symm
        rw [ha, hy'] at h10
        rw [hy']
        exact congrArg some h10
    · rw [hs _ m _ _ x conv h7 hx]
      have e1 : vnorm ((fun i : Fin F.length => F[(i : ℕ)]) - Matrix.mulVec (fun i j : Fin F.length => obsK A i j) x)
          = dofNorm (freeDofs t bc) (residual calls fun n d => passBase own t bc (valOf u) n d +
              (valOf v n d - valOf u n d)) := by
        rw [hnorm, ← h3]
        apply vnorm_range
        intro i
        have h8 := system_residual hN hfit2 (obsF (List.ofFn x)) (valOf b) (fun _ _ _ => rfl) i
        have h9 : (fun n d => passBase own t bc (valOf u) n d + (valOf v n d - valOf u n d)) =
            spread (renumbering t₁).1 (valOf b) (obsF (List.ofFn x)) := by
          funext n d
          rw [k2, add_sub_cancel_left, hval, ← base_spread hset hz, ← hb]
          unfold spread
          split_ifs <;> simp
        rw [h9, ← h8, ← h5]
        simp only [← h4]
        rw [← h3, Finset.sum_range]
        simp only [obsF_ofFn]
        have hF : obsF F i = F[(i : ℕ)] := by simp [obsF]
        rw [hF, Pi.sub_apply, ← neg_sub, neg_sq]
        rfl
      have e2 : vnorm (fun i : Fin F.length => F[(i : ℕ)]) = passNorm own t bc calls (valOf u) := by
        rw [passNorm, hnorm, ← h3]
        apply vnorm_range
        intro i
        have hF' : obsF F i = F[(i : ℕ)] := by simp [obsF]
        rw [← hF', hF, neg_sq]
      rw [e1, e2]

/-- The loop is left if the test holds. -/
theorem newtonIter_left (hset : setDirichlet z t bc = some (w, t₁)) (hu : SameDofs z u) (hl : loop u = some calls)
    (hfit : ∀ c ∈ calls, c.Fits t z) (hz : ∀ n d, valOf z n d = 0)
    (ht : test (passNorm own t bc calls (valOf u) ^ 2) = some true) :
    newtonIter s own test loop (renumbering t₁).1 (renumbering t₁).2 z u = some none := by
  have hlen := (C21_setDirichlet z w t t₁ bc hset).1
  set b := if own then u else z with hb
  have hsame : SameDofs z b := by
    rw [hb]; split_ifs
    · exact hu
    · exact fun _ _ => rfl
  have h0' : setDirichlet b t₁ [] = some (b, t₁) := rfl
  have hfit1 : ∀ c ∈ calls, c.Fits t₁ b := fun c hc =>
    ⟨fun p hp => ⟨by rw [isSome_of_lengths hlen]; exact ((hfit c hc).1 p hp).1, by
      rw [← hsame]; exact ((hfit c hc).1 p hp).2⟩, (hfit c hc).2⟩
  have hfit2 : ∀ c ∈ calls, c.Fits (renumbering t₁).1 b := fun c hc => fits_renumbered h0' (hfit1 c hc)
  obtain ⟨A, F, h1, h2, h3, h4, h5⟩ := asmCalls_system (renumbering_numbered t₁) hfit2
  have hR : (F.map fun r => r * r).sum = passNorm own t bc calls (valOf u) ^ 2 := by
    rw [passNorm, ← freeDofs_marked hset, ← norm_renumbered h0' hfit1,
      Real.sq_sqrt (Finset.sum_nonneg fun _ _ => by positivity), list_sq_range, h3]
    refine Finset.sum_congr rfl fun I _ => ?_
    rw [h5, rhs_residual (renumbering_numbered t₁) hfit2, base_spread hset hz, neg_sq]
  unfold newtonIter
  simp only [hl, ← hb, h1, Option.bind_eq_bind, Option.bind_some, hR, ht]
  rfl

end

/-! ### Loads -/

section
variable {K : Type} [Ring K]

theorem residual_zero (calls : List (AsmCall K)) (n d : ℕ) : residual calls (fun _ _ => 0) n d = - loadAt calls n d := by
  unfold residual loadAt
  rw [← list_sum_neg]
  refine congrArg List.sum (List.map_congr_left fun c _ => ?_)
  rw [← list_sum_neg]
  refine congrArg List.sum (List.map_congr_left fun p _ => ?_)
  split_ifs <;> simp

theorem loadAt_append (a b : List (AsmCall K)) (n d : ℕ) : loadAt (a ++ b) n d = loadAt a n d + loadAt b n d := by
  simp [loadAt]

theorem loadAt_nodal (q : List ((ℕ × ℕ) × K)) (n d : ℕ) :
    loadAt [.nodal q] n d = (q.map fun p => if p.1.1 = n ∧ p.1.2 = d then p.2 else 0).sum := by
  simp only [loadAt, List.map_cons, List.map_nil, List.sum_cons, List.sum_nil, add_zero, AsmCall.dofs, List.map_map]
  rw [show (q.map fun p => if p.1.1 = n ∧ p.1.2 = d then p.2 else 0) =
      (q.zipIdx.map Prod.fst).map fun p => if p.1.1 = n ∧ p.1.2 = d then p.2 else 0 by
    rw [List.zipIdx_map_fst], List.map_map]
  refine congrArg List.sum (List.map_congr_left fun p hp => ?_)
  have := List.mem_zipIdx_iff_getElem?.1 hp
  simp [AsmCall.rhs, this]

theorem loadAt_scale (c : K) (q : List ((ℕ × ℕ) × K)) (n d : ℕ) :
    loadAt [.nodal (scaleValues c q)] n d = loadAt [.nodal q] n d * c := by
  rw [loadAt_nodal, loadAt_nodal, ← List.sum_map_mul_right, scaleValues, List.map_map]
  refine congrArg List.sum (List.map_congr_left fun p _ => ?_)
  simp only [Function.comp_apply]
  split_ifs <;> simp

end

theorem loadNorm_scale {c : ℝ} (hc : 0 ≤ c) (q : List ((ℕ × ℕ) × ℝ)) : loadNorm (scaleValues c q) = c * loadNorm q := by
  unfold loadNorm scaleValues
  rw [List.map_map, ← Real.sqrt_sq hc, ← Real.sqrt_mul (sq_nonneg _), Real.sqrt_sq hc, list_sum_mul_left]
  congr 2
  refine List.map_congr_left fun p _ => ?_
  simp only [Function.comp_apply]
  ring

theorem scaleValues_one (q : List ((ℕ × ℕ) × ℝ)) : scaleValues 1 q = q := by
  simp [scaleValues]

theorem dofNorm_congr {L : List (ℕ × ℕ)} {v w : ℕ → ℕ → ℝ} (h : ∀ p ∈ L, v p.1 p.2 ^ 2 = w p.1 p.2 ^ 2) :
    dofNorm L v = dofNorm L w := by
  unfold dofNorm
  rw [List.map_congr_left h]

theorem dofNorm_scale (L : List (ℕ × ℕ)) (v : ℕ → ℕ → ℝ) {c : ℝ} (hc : 0 ≤ c) :
    dofNorm L (fun n d => v n d * c) = dofNorm L v * c := by
  unfold dofNorm
  rw [← Real.sqrt_sq hc, ← Real.sqrt_mul (List.sum_nonneg fun r hr => by
    obtain ⟨p, -, rfl⟩ := List.mem_map.1 hr
    positivity), Real.sqrt_sq hc, ← List.sum_map_mul_right]
  simp only [mul_pow]

theorem loadTest_eq {q : List ((ℕ × ℕ) × ℝ)} {r : ℝ} {b : Bool} :
    loadTest q r = some b ↔ loadNorm q ≠ 0 ∧ (b = true ↔ r / loadNorm q < 1 / 10 ^ 10) := by
  unfold loadTest div?
  rw [show Real.sqrt (q.map fun p => p.2 ^ 2).sum = loadNorm q from rfl]
  by_cases h : loadNorm q = 0
  · simp [h]
  · simp only [h, if_false, Option.bind_eq_bind, Option.bind_some, Option.pure_def, Option.some.injEq, ne_eq,
      not_false_eq_true, true_and]
    cases b <;> simp

end Pansfem
