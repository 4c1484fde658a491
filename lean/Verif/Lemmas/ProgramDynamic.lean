/-
The assembling calls of a time step and the equation they stand for.
-/
import Verif.Spec.ProgramDynamic
import Verif.Props.C01_Dense
import Verif.Props.C110_Reactions

namespace Pansfem

variable {K : Type}

/-! ### Element matrices and vectors -/

theorem dense_at {m n : ℕ} (M : Matrix (Fin m) (Fin n) K) {i j : ℕ} (hi : i < m) (hj : j < n) :
    (dense M).at? (i : ℕ) (j : ℕ) = some (M ⟨i, hi⟩ ⟨j, hj⟩) := by
  have := dense_get M ⟨i, hi⟩ ⟨j, hj⟩
  rw [Mat.at?, if_pos ⟨by omega, by simpa using hi, by omega, by simpa using hj⟩]
  rw [show ((i : ℤ) * ((dense M).col : ℤ) + (j : ℤ)).toNat = i * n + j by
    rw [show (dense M).col = n from rfl]; exact_mod_cast Int.toNat_natCast (i * n + j)]
  exact this

theorem densev_at {n : ℕ} (v : Fin n → K) {i : ℕ} (hi : i < n) : (densev v).at? (i : ℕ) = some (v ⟨i, hi⟩) := by
  have := densev_get v ⟨i, hi⟩
  rw [Vec.at?, if_pos ⟨by omega, by simpa using hi⟩]
  simpa using this

theorem exists_dense_size {A : Mat K} {m n : ℕ} (h : A.WF) (hr : A.row = m) (hc : A.col = n) :
    ∃ M : Matrix (Fin m) (Fin n) K, A = dense M := by
  subst hr hc
  exact exists_dense A h

theorem exists_densev_size {v : Vec K} {n : ℕ} (h : v.size = n) : ∃ w : Fin n → K, v = densev w := by
  subst h
  exact exists_densev v

theorem range_sum_fin [AddCommMonoid K] (n : ℕ) (f : ℕ → K) : ((List.range n).map f).sum = ∑ i : Fin n, f i := by
  rw [Finset.sum_fin_eq_sum_range]
  induction n with
  | zero => simp
  | succ n ih =>
    rw [List.range_succ, List.map_append, List.sum_append, Finset.sum_range_succ]
    simp only [List.map_cons, List.map_nil, List.sum_cons, List.sum_nil, add_zero]
    rw [dif_pos (Nat.lt_succ_self n), ih]
    congr 1
    refine Finset.sum_congr rfl fun i hi => ?_
    have := Finset.mem_range.1 hi
    rw [dif_pos this, dif_pos (by omega)]

section
variable [Field K] [DecidableEq K] {t : List (List ℤ)} {u : List (Vec K)} {dt theta : K}

/-- The element matrix and vector of a time step. -/
theorem thetaElem_spec {it : TimeItem K} (hdt : dt ≠ 0) (h : it.Sound t u) :
    ∃ Ae be, thetaElem dt theta u it = some (Ae, be) ∧
      (∀ p ∈ localDofs it.nte it.element, ∀ q ∈ localDofs it.nte it.element,
        Ae.at? (p.2.2 : ℕ) (q.2.2 : ℕ) = some (it.mass.mat p.2.2 q.2.2 / dt + theta * it.stiff.mat p.2.2 q.2.2)) ∧
      ∀ p ∈ localDofs it.nte it.element, be.at? (p.2.2 : ℕ) =
        some (((localDofs it.nte it.element).map fun q => (it.mass.mat p.2.2 q.2.2 / dt -
          (1 - theta) * it.stiff.mat p.2.2 q.2.2) * valOf u q.1 q.2.1).sum + it.source.rhs p.2.2) := by
  obtain ⟨ue, h1, h2, h3⟩ := C110_elementVector u it.nte it.element h.massSq.1.le (fun p hp => (h.fits p hp).2)
    (h.massSq.2.1.nodup_iff.2 List.nodup_range) (fun p hp => h.massSq.lt p hp)
  set L := (localDofs it.nte it.element).length with hL
  obtain ⟨M, hM⟩ := exists_dense_size h.massWF h.massSq.2.2.1 h.massSq.2.2.2
  obtain ⟨N, hN⟩ := exists_dense_size h.stiffWF h.stiffSq.2.2.1 h.stiffSq.2.2.2
  obtain ⟨w, rfl⟩ := exists_densev_size h2
  have hlt : ∀ p ∈ localDofs it.nte it.element, p.2.2 < L := fun p hp => h.massSq.lt p hp
  have eM : ∀ p (hp : p ∈ localDofs it.nte it.element) q (hq : q ∈ localDofs it.nte it.element),
      it.mass.mat p.2.2 q.2.2 = M ⟨p.2.2, hlt p hp⟩ ⟨q.2.2, hlt q hq⟩ := by
    intro p hp q hq
    show (it.Me.at? _ _).getD 0 = _
    rw [hM, dense_at M (hlt p hp) (hlt q hq)]
    rfl
  have eN : ∀ p (hp : p ∈ localDofs it.nte it.element) q (hq : q ∈ localDofs it.nte it.element),
      it.stiff.mat p.2.2 q.2.2 = N ⟨p.2.2, hlt p hp⟩ ⟨q.2.2, hlt q hq⟩ := by
    intro p hp q hq
    show (it.Ke.at? _ _).getD 0 = _
    rw [hN, dense_at N (hlt p hp) (hlt q hq)]
    rfl
  have ew : ∀ q (hq : q ∈ localDofs it.nte it.element), valOf u q.1 q.2.1 = w ⟨q.2.2, hlt q hq⟩ := by
    intro q hq
    have := h3 q hq
    rw [densev_at w (hlt q hq)] at this
    show (nodal u q.1 q.2.1).getD 0 = _
    rw [← this]
    rfl
  have key : ∀ p (hp : p ∈ localDofs it.nte it.element),
      ((localDofs it.nte it.element).map fun q => (it.mass.mat p.2.2 q.2.2 / dt -
          (1 - theta) * it.stiff.mat p.2.2 q.2.2) * valOf u q.1 q.2.1).sum =
        ((dt⁻¹ • M - (1 - theta) • N).mulVec w) ⟨p.2.2, hlt p hp⟩ := by
    intro p hp
    have e1 : ((localDofs it.nte it.element).map fun q => (it.mass.mat p.2.2 q.2.2 / dt -
          (1 - theta) * it.stiff.mat p.2.2 q.2.2) * valOf u q.1 q.2.1) =
        ((localDofs it.nte it.element).map fun q => q.2.2).map fun j => if hj : j < L then
          (M ⟨p.2.2, hlt p hp⟩ ⟨j, hj⟩ / dt - (1 - theta) * N ⟨p.2.2, hlt p hp⟩ ⟨j, hj⟩) * w ⟨j, hj⟩ else 0 := by
      rw [List.map_map]
      refine List.map_congr_left fun q hq => ?_
      simp only [Function.comp_apply]
      rw [dif_pos (hlt q hq), eM p hp q hq, eN p hp q hq, ew q hq]
    rw [e1, (h.massSq.2.1.map _).sum_eq, range_sum_fin]
    simp only [Matrix.mulVec, dotProduct]
    refine Finset.sum_congr rfl fun j _ => ?_
    rw [dif_pos j.2]
    simp [Matrix.sub_apply, div_eq_inv_mul]
  have hA : ∀ p ∈ localDofs it.nte it.element, ∀ q ∈ localDofs it.nte it.element,
      (dense (dt⁻¹ • M + theta • N)).at? (p.2.2 : ℕ) (q.2.2 : ℕ) =
        some (it.mass.mat p.2.2 q.2.2 / dt + theta * it.stiff.mat p.2.2 q.2.2) := by
    intro p hp q hq
    rw [dense_at _ (hlt p hp) (hlt q hq), eM p hp q hq, eN p hp q hq]
    simp [Matrix.add_apply, div_eq_inv_mul]
  cases hF : it.Fe with
  | none =>
    refine ⟨dense (dt⁻¹ • M + theta • N), densev ((dt⁻¹ • M - (1 - theta) • N).mulVec w), ?_, hA, ?_⟩
    · unfold thetaElem
      simp only [h1, hM, hN, hF, C01_mat_sdiv _ _ hdt, C01_mat_smul, C01_mat_add, C01_mat_sub, C01_mat_vec,
        Option.bind_eq_bind, Option.bind_some, Option.pure_def]
    · intro p hp
      rw [densev_at _ (hlt p hp), key p hp]
      simp [TimeItem.source, AsmCall.rhs, hF, Vec.at?, Vec.size]
  | some f =>
    obtain ⟨g, rfl⟩ := exists_densev_size (h.source f hF)
    refine ⟨dense (dt⁻¹ • M + theta • N), densev ((dt⁻¹ • M - (1 - theta) • N).mulVec w + g), ?_, hA, ?_⟩
    · unfold thetaElem
      simp only [h1, hM, hN, hF, C01_mat_sdiv _ _ hdt, C01_mat_smul, C01_mat_add, C01_mat_sub, C01_mat_vec,
        C01_vec_add, Option.bind_eq_bind, Option.bind_some, Option.pure_def]
    · intro p hp
      rw [densev_at _ (hlt p hp), key p hp]
      simp only [TimeItem.source, AsmCall.rhs, hF, Option.getD_some, densev_at g (hlt p hp), Pi.add_apply]

/-! ### The calls -/

omit [DecidableEq K] in
theorem timeResidual_cons (it : TimeItem K) (items : List (TimeItem K)) (u v : ℕ → ℕ → K) (n d : ℕ) :
    timeResidual (it :: items) dt theta u v n d =
      timeResidual [it] dt theta u v n d + timeResidual items dt theta u v n d := by
  unfold timeResidual residual loadAt
  simp only [List.map_cons, List.sum_cons, List.map_nil, List.sum_nil]
  ring

omit [DecidableEq K] in
theorem list_sum_ite {α : Type} (L : List α) (P : α → Prop) [DecidablePred P] (f g : α → K)
    (h : ∀ a ∈ L, P a → f a = g a) : (L.map fun a => if P a then f a else 0).sum =
      (L.map fun a => if P a then g a else 0).sum := by
  refine congrArg List.sum (List.map_congr_left fun a ha => ?_)
  split_ifs with hp
  · exact h a ha hp
  · rfl

/-- What one element contributes to the calls. -/
theorem thetaItem (joint : Bool) {it : TimeItem K} (hdt : dt ≠ 0) (h : it.Sound t u) :
    ∃ cs, (do let (Ae, be) ← thetaElem dt theta u it
              return if joint then [AsmCall.both Ae be it.nte it.element] else
                [.matrix Ae it.nte it.element, .load be it.nte it.element] : Option (List (AsmCall K))) = some cs ∧
      (∀ c ∈ cs, c.Fits t u) ∧
      (∀ v n d, residual cs v n d = timeResidual [it] dt theta (valOf u) v n d) ∧
      (∀ v w, energy cs v w = energy [it.mass] v w / dt + theta * energy [it.stiff] v w) ∧
      (SymmetricCalls [it.mass] → SymmetricCalls [it.stiff] → SymmetricCalls cs) := by
  obtain ⟨Ae, be, h1, h2, h3⟩ := thetaElem_spec (theta := theta) hdt h
  set D := localDofs it.nte it.element with hD
  have hlen : it.element.length ≤ it.nte.length := h.massSq.1.ge
  have hmat : ∀ p ∈ D, ∀ q ∈ D, (Ae.at? (p.2.2 : ℕ) (q.2.2 : ℕ)).getD 0 =
      it.mass.mat p.2.2 q.2.2 / dt + theta * it.stiff.mat p.2.2 q.2.2 := fun p hp q hq => by rw [h2 p hp q hq]; rfl
  have hvec : ∀ p ∈ D, (be.at? (p.2.2 : ℕ)).getD 0 = (D.map fun q => (it.mass.mat p.2.2 q.2.2 / dt -
      (1 - theta) * it.stiff.mat p.2.2 q.2.2) * valOf u q.1 q.2.1).sum + it.source.rhs p.2.2 :=
    fun p hp => by rw [h3 p hp]; rfl
  have hres : ∀ (v : ℕ → ℕ → K) n d, timeResidual [it] dt theta (valOf u) v n d = (D.map fun p =>
      if p.1 = n ∧ p.2.1 = d then (D.map fun q => (it.mass.mat p.2.2 q.2.2 / dt + theta * it.stiff.mat p.2.2 q.2.2) *
        v q.1 q.2.1).sum - ((D.map fun q => (it.mass.mat p.2.2 q.2.2 / dt -
          (1 - theta) * it.stiff.mat p.2.2 q.2.2) * valOf u q.1 q.2.1).sum + it.source.rhs p.2.2) else 0).sum := by
    intro v n d
    have hr1 : ∀ a, it.mass.rhs a = 0 := fun a => rfl
    have hr2 : ∀ a, it.stiff.rhs a = 0 := fun a => rfl
    have hd1 : it.mass.dofs = D := rfl
    have hd2 : it.stiff.dofs = D := rfl
    have hd3 : it.source.dofs = D := rfl
    unfold timeResidual residual loadAt
    simp only [List.map_cons, List.map_nil, List.sum_cons, List.sum_nil, add_zero, hr1, hr2, hd1, hd2, hd3, sub_zero]
    rw [← List.sum_map_add, ← list_sum_sub]
    refine congrArg List.sum (List.map_congr_left fun p _ => ?_)
    split_ifs
    · rw [← List.sum_map_add, ← sub_sub, ← list_sum_sub]
      refine congrArg (· - _) (congrArg List.sum (List.map_congr_left fun q _ => ?_))
      field_simp
      ring
    · simp
  have hen : ∀ v w : ℕ → ℕ → K, (D.map fun p => v p.1 p.2.1 * (D.map fun q => (Ae.at? (p.2.2 : ℕ) (q.2.2 : ℕ)).getD 0 *
      w q.1 q.2.1).sum).sum = energy [it.mass] v w / dt + theta * energy [it.stiff] v w := by
    intro v w
    have hd1 : it.mass.dofs = D := rfl
    have hd2 : it.stiff.dofs = D := rfl
    unfold energy
    simp only [List.map_cons, List.map_nil, List.sum_cons, List.sum_nil, add_zero, hd1, hd2]
    rw [div_eq_inv_mul, list_sum_mul_left, list_sum_mul_left, ← List.sum_map_add]
    refine congrArg List.sum (List.map_congr_left fun p hp => ?_)
    rw [mul_left_comm, mul_left_comm theta, ← mul_add]
    refine congrArg _ ?_
    rw [list_sum_mul_left, list_sum_mul_left, ← List.sum_map_add]
    refine congrArg List.sum (List.map_congr_left fun q hq => ?_)
    rw [hmat p hp q hq]
    ring
  have hsym : SymmetricCalls [it.mass] → SymmetricCalls [it.stiff] → ∀ p ∈ D, ∀ q ∈ D,
      (Ae.at? (p.2.2 : ℕ) (q.2.2 : ℕ)).getD 0 = (Ae.at? (q.2.2 : ℕ) (p.2.2 : ℕ)).getD 0 := by
    intro s1 s2 p hp q hq
    rw [hmat p hp q hq, hmat q hq p hp, s1 it.mass (by simp) p hp q hq, s2 it.stiff (by simp) p hp q hq]
  cases joint with
  | true =>
    refine ⟨[.both Ae be it.nte it.element], by simp [h1], ?_, ?_, ?_, ?_⟩
    · intro c hc
      rw [List.mem_singleton.1 hc]
      exact ⟨h.fits, hlen, fun p hp q hq => by rw [h2 p hp q hq]; rfl, fun p hp => by rw [h3 p hp]; rfl⟩
    · intro v n d
      rw [hres]
      unfold residual
      simp only [List.map_cons, List.map_nil, List.sum_cons, List.sum_nil, add_zero, AsmCall.dofs, AsmCall.mat,
        AsmCall.rhs, ← hD]
      refine list_sum_ite _ _ _ _ fun p hp _ => ?_
      rw [hvec p hp]
      refine congrArg (· - _) (congrArg List.sum (List.map_congr_left fun q hq => ?_))
      rw [hmat p hp q hq]
      rfl
    · intro v w
      rw [← hen]
      simp [energy, AsmCall.dofs, AsmCall.mat, ← hD]
    · intro s1 s2 c hc
      rw [List.mem_singleton.1 hc]
      exact hsym s1 s2
  | false =>
    refine ⟨[.matrix Ae it.nte it.element, .load be it.nte it.element], by simp [h1], ?_, ?_, ?_, ?_⟩
    · intro c hc
      simp only [List.mem_cons, List.not_mem_nil, or_false] at hc
      rcases hc with rfl | rfl
      · exact ⟨h.fits, hlen, fun p hp q hq => by rw [h2 p hp q hq]; rfl⟩
      · exact ⟨h.fits, hlen, fun p hp => by rw [h3 p hp]; rfl⟩
    · intro v n d
      rw [hres]
      unfold residual
      simp only [List.map_cons, List.map_nil, List.sum_cons, List.sum_nil, add_zero, AsmCall.dofs, AsmCall.mat,
        AsmCall.rhs, ← hD, zero_mul, List.map_const', List.sum_replicate, smul_zero, zero_sub, sub_zero]
      rw [← List.sum_map_add]
      refine congrArg List.sum (List.map_congr_left fun p hp => ?_)
      split_ifs
      · rw [hvec p hp, ← sub_eq_add_neg]
        refine congrArg (· - _) (congrArg List.sum (List.map_congr_left fun q hq => ?_))
        rw [hmat p hp q hq]
        rfl
      · simp
    · intro v w
      rw [← hen]
      simp [energy, AsmCall.dofs, AsmCall.mat, ← hD]
    · intro s1 s2 c hc
      simp only [List.mem_cons, List.not_mem_nil, or_false] at hc
      rcases hc with rfl | rfl
      · exact hsym s1 s2
      · intro p _ q _; rfl

/-- The calls of a time step. -/
theorem thetaCalls_spec (joint : Bool) (hdt : dt ≠ 0) : ∀ {items : List (TimeItem K)}, (∀ it ∈ items, it.Sound t u) →
    ∃ calls, thetaCalls joint dt theta u items = some calls ∧ (∀ c ∈ calls, c.Fits t u) ∧
      (∀ v n d, residual calls v n d = timeResidual items dt theta (valOf u) v n d) ∧
      (∀ v w, energy calls v w = energy (items.map TimeItem.mass) v w / dt +
        theta * energy (items.map TimeItem.stiff) v w) ∧
      (SymmetricCalls (items.map TimeItem.mass) → SymmetricCalls (items.map TimeItem.stiff) →
        SymmetricCalls calls) := by
  intro items
  induction items with
  | nil =>
    intro _
    refine ⟨[], rfl, by simp, ?_, ?_, ?_⟩
    · intro v n d; simp [residual, timeResidual, loadAt]
    · intro v w; simp [energy]
    · intro _ _ c hc; simp at hc
  | cons it items ih =>
    intro hs
    obtain ⟨cs, a1, a2, a3, a4, a5⟩ := thetaItem (theta := theta) joint hdt (hs it (by simp))
    obtain ⟨calls, b1, b2, b3, b4, b5⟩ := ih fun i hi => hs i (by simp [hi])
    refine ⟨cs ++ calls, ?_, ?_, ?_, ?_, ?_⟩
    · unfold thetaCalls at b1 ⊢
      simp only [Option.bind_eq_bind, Option.pure_def, Option.bind_eq_some_iff, Option.some.injEq] at b1
      obtain ⟨r, hr, rfl⟩ := b1
      rw [List.mapM_cons, a1]
      simp only [Option.bind_eq_bind, Option.bind_some, Option.pure_def]
      rw [hr]
      rfl
    · intro c hc
      rcases List.mem_append.1 hc with hc | hc
      · exact a2 c hc
      · exact b2 c hc
    · intro v n d
      rw [residual_append, a3, b3, timeResidual_cons it items]
    · intro v w
      have e : ∀ (a b : List (AsmCall K)), energy (a ++ b) v w = energy a v w + energy b v w := fun a b => by
        simp [energy]
      have e1 := e [it.mass] (items.map TimeItem.mass)
      have e2 := e [it.stiff] (items.map TimeItem.stiff)
      rw [List.map_cons, List.map_cons, e, a4, b4]
      rw [List.singleton_append] at e1 e2
      rw [e1, e2]
      ring
    · intro s1 s2 c hc
      rcases List.mem_append.1 hc with hc | hc
      · exact a5 (fun c hc => s1 c (by rw [List.mem_singleton.1 hc]; simp))
          (fun c hc => s2 c (by rw [List.mem_singleton.1 hc]; simp)) c hc
      · exact b5 (fun c hc => s1 c (by simp at hc ⊢; exact Or.inr hc))
          (fun c hc => s2 c (by simp at hc ⊢; exact Or.inr hc)) c hc

end

end Pansfem
