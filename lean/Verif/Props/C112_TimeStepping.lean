/-
C112: the time dependent programs.
-/
import Verif.Lemmas.ProgramDynamic

namespace Pansfem

/-! ### One step -/

section
variable {u u' : List (Vec ℝ)} {t : List (List ℤ)} {bc : List ((ℕ × ℕ) × ℝ)} {dt theta : ℝ}
  {items : List (TimeItem ℝ)}

theorem TimeItem.Sound.congr {K : Type} {it : TimeItem K} {t t' : List (List ℤ)} {u u' : List (Vec K)}
    (h : it.Sound t u) (ht : t'.map List.length = t.map List.length) (hu : SameDofs u u') : it.Sound t' u' :=
  ⟨h.massWF, h.stiffWF, h.massSq, h.stiffSq, fun p hp => ⟨by rw [isSome_of_lengths ht]; exact (h.fits p hp).1, by
    rw [← hu]; exact (h.fits p hp).2⟩, h.source⟩

theorem held_given (u : List (Vec ℝ)) (t : List (List ℤ)) (bc : List ((ℕ × ℕ) × ℝ)) (t₁ : List (List ℤ))
    (h : ∀ n d, IsFree t₁ ([] : List ((ℕ × ℕ) × ℝ)) (n, d) ↔ IsFree t bc (n, d)) :
    given u t₁ [] = held t bc (valOf u) := by
  funext n d
  unfold given held
  rw [if_congr (h n d) rfl rfl]
  rfl

theorem solveStep_same {s : LinSolver} {N : ℕ} {calls : List (AsmCall ℝ)} {conv : Bool}
    (h : solveStep s u t N calls = some (u', conv)) : SameDofs u u' := by
  unfold solveStep at h
  simp only [Option.bind_eq_bind, Option.bind_eq_some_iff, Option.pure_def, Option.some.injEq, Prod.mk.injEq,
    Prod.exists] at h
  obtain ⟨A, F, -, B, b, -, y, c, -, w, h2, rfl, -⟩ := h
  exact disassembling_same h2

theorem freeDofs_marked {u₀ w : List (Vec ℝ)} {t₁ : List (List ℤ)} (h : setDirichlet u₀ t bc = some (w, t₁)) :
    freeDofs t₁ ([] : List ((ℕ × ℕ) × ℝ)) = freeDofs t bc := by
  rw [← freeDofs_dirichlet h]
  unfold freeDofs IsFree
  simp

theorem isFree_marked {u₀ w : List (Vec ℝ)} {t₁ : List (List ℤ)} (h : setDirichlet u₀ t bc = some (w, t₁)) (n d : ℕ) :
    IsFree t₁ ([] : List ((ℕ × ℕ) × ℝ)) (n, d) ↔ IsFree t bc (n, d) := by
  rw [← numOf_dirichlet h]
  simp [IsFree]

/-- **C112**: one time step after `SetDirichlet` and `Renumbering`.  The dofs that are not free keep their values,
and the solver reports convergence exactly if the residual of `M (v - u)/dt + K (theta v + (1 - theta) u) - F` over
the free dofs is below `1e-10` times that of the held values alone. -/
theorem C112_step (s : LinSolver) (hs : s.Certifies) (joint : Bool) (hdt : dt ≠ 0)
    (loop : List (Vec ℝ) → Option (List (TimeItem ℝ))) (u₀ w : List (Vec ℝ)) (t₁ : List (List ℤ))
    (hset : setDirichlet u₀ t bc = some (w, t₁)) (hloop : loop u = some items) (hu : SameDofs u₀ u)
    (hsound : ∀ it ∈ items, it.Sound t u₀) (conv : Bool)
    (h : thetaStep s joint dt theta loop (renumbering t₁).1 (renumbering t₁).2 u = some (u', conv)) :
    SameDofs u₀ u' ∧ (∀ n d, ¬ IsFree t bc (n, d) → nodal u' n d = nodal u n d) ∧
    (conv = true ↔ StepMet items dt theta t bc (valOf u) (valOf u')) := by
  have hl := (C21_setDirichlet u₀ w t t₁ bc hset).1
  have hsound' : ∀ it ∈ items, it.Sound t₁ u := fun it hit => (hsound it hit).congr hl hu
  obtain ⟨calls, c1, c2, c3, -, -⟩ := thetaCalls_spec (theta := theta) joint hdt hsound'
  unfold thetaStep at h
  simp only [hloop, Option.bind_eq_bind, Option.bind_some, c1] at h
  have h0 : setDirichlet u t₁ [] = some (u, t₁) := rfl
  obtain ⟨a1, a2⟩ := solveStep_spec hs (renumbering_numbered t₁) (fun c hc => fits_renumbered h0 (c2 c hc)) h
  refine ⟨fun n d => by rw [hu, solveStep_same h], fun n d hn => a1 n d ?_, ?_⟩
  · by_contra hc
    exact hn ((isFree_marked hset n d).1 ((numOf_renumbered h0 n d).1 hc))
  · rw [given_dirichlet h0, norm_renumbered h0 c2, norm_renumbered h0 c2, freeDofs_marked hset] at a2
    rw [a2, held_given u t bc t₁ (isFree_marked hset)]
    unfold StepMet dofNorm
    simp only [c3]

end

/-- **C112**: a time step whose right-hand side vanishes, for instance from a field that is zero, divides zero by
zero. -/
theorem C112_still {u : List (Vec ℝ)} {t : List (List ℤ)} {bc : List ((ℕ × ℕ) × ℝ)} {dt theta : ℝ}
    {items : List (TimeItem ℝ)} (s : LinSolver) (hs : s.Breaks) (joint : Bool) (hdt : dt ≠ 0)
    (loop : List (Vec ℝ) → Option (List (TimeItem ℝ))) (u₀ w : List (Vec ℝ)) (t₁ : List (List ℤ))
    (hset : setDirichlet u₀ t bc = some (w, t₁)) (hloop : loop u = some items) (hu : SameDofs u₀ u)
    (hsound : ∀ it ∈ items, it.Sound t u₀)
    (h0 : ∀ p ∈ freeDofs t bc, timeResidual items dt theta (valOf u) (held t bc (valOf u)) p.1 p.2 = 0) :
    thetaStep s joint dt theta loop (renumbering t₁).1 (renumbering t₁).2 u = none := by
  have hl := (C21_setDirichlet u₀ w t t₁ bc hset).1
  obtain ⟨calls, c1, c2, c3, -, -⟩ := thetaCalls_spec (theta := theta) joint hdt fun it hit =>
    (hsound it hit).congr hl hu
  unfold thetaStep
  simp only [hloop, Option.bind_eq_bind, Option.bind_some, c1]
  refine C108_unloaded s hs u t₁ [] calls c2 fun p hp => ?_
  rw [held_given u t bc t₁ (isFree_marked hset), c3]
  rw [freeDofs_marked hset] at hp
  exact h0 p hp

/-! ### All steps -/

theorem run_spec (s : LinSolver) (hs : s.Certifies) (joint : Bool) {dt theta : ℝ} (hdt : dt ≠ 0)
    (loop : List (Vec ℝ) → Option (List (TimeItem ℝ))) {u₀ w : List (Vec ℝ)} {t t₁ : List (List ℤ)}
    {bc : List ((ℕ × ℕ) × ℝ)} (hset : setDirichlet u₀ t bc = some (w, t₁))
    (hloop : ∀ u items, SameDofs u₀ u → loop u = some items → ∀ it ∈ items, it.Sound t u₀) :
    ∀ (steps : ℕ) (u u' : List (Vec ℝ)) (conv : Bool), SameDofs u₀ u →
      thetaSteps s joint dt theta loop (renumbering t₁).1 (renumbering t₁).2 steps u = some (u', conv) →
      ∃ U : ℕ → List (Vec ℝ), U 0 = u ∧ U steps = u' ∧
        (∀ k < steps, ∀ n d, ¬ IsFree t bc (n, d) → nodal (U (k + 1)) n d = nodal (U k) n d) ∧
        (∀ k ≤ steps, SameDofs u₀ (U k)) ∧ (∀ k < steps, ∃ items, loop (U k) = some items) ∧
        (conv = true ↔ ∀ k < steps, ∀ items, loop (U k) = some items →
          StepMet items dt theta t bc (valOf (U k)) (valOf (U (k + 1)))) := by
  intro steps
  induction steps with
  | zero =>
    intro u u' conv hu h
    simp only [thetaSteps, Option.some.injEq, Prod.mk.injEq] at h
    obtain ⟨rfl, rfl⟩ := h
    exact ⟨fun _ => u, rfl, rfl, by simp, fun _ _ => hu, by simp, by simp⟩
  | succ k ih =>
    intro u u' conv hu h
    simp only [thetaSteps, Option.bind_eq_bind, Option.bind_eq_some_iff, Option.pure_def, Option.some.injEq,
      Prod.mk.injEq, Prod.exists] at h
    obtain ⟨v, c, h1, v', c', h2, rfl, rfl⟩ := h
    obtain ⟨items, hi⟩ : ∃ items, loop u = some items := by
      unfold thetaStep at h1
      simp only [Option.bind_eq_bind, Option.bind_eq_some_iff] at h1
      obtain ⟨items, hi, -⟩ := h1
      exact ⟨items, hi⟩
    obtain ⟨a1, a2, a3⟩ := C112_step s hs joint hdt loop u₀ w t₁ hset hi hu (hloop u items hu hi) c h1
    obtain ⟨U, b1, b2, b3, b4, b5, b6⟩ := ih v v' c' a1 h2
    refine ⟨fun i => if i = 0 then u else U (i - 1), rfl, ?_, ?_, ?_, ?_, ?_⟩
    · simpa using b2
    · intro i hi' n d hn
      cases i with
      | zero => simpa [b1] using a2 n d hn
      | succ i => simpa using b3 i (by omega) n d hn
    · intro i hi'
      cases i with
      | zero => simpa using hu
      | succ i => simpa using b4 i (by omega)
    · intro i hi'
      cases i with
      | zero => simpa using ⟨items, hi⟩
      | succ i => simpa using b5 i (by omega)
    · rw [Bool.and_eq_true, a3, b6]
      constructor
      · rintro ⟨g1, g2⟩ i hi' its hits
        cases i with
        | zero =>
          simp only [if_true] at hits
          obtain rfl := Option.some.inj (hi.symm.trans hits)
          simpa [b1] using g1
        | succ i =>
          simp only [Nat.succ_ne_zero, if_false, Nat.add_sub_cancel] at hits ⊢
          exact g2 i (by omega) its hits
      · intro g
        refine ⟨by simpa [b1] using g 0 (by omega) items (by simpa using hi), fun i hi' its hits => ?_⟩
        have := g (i + 1) (by omega) its (by simpa using hits)
        simpa using this

/-- **C112**: a run.  There are fields `U 0, ..., U steps`: the first is the initial field with the boundary values,
the last is the result, the dofs that are not free have the same value in all of them, and the solver reported
convergence in all steps exactly if every step meets its criterion for the equation of the time step. -/
theorem C112_run (s : LinSolver) (hs : s.Certifies) (joint : Bool) (dt theta : ℝ) (hdt : dt ≠ 0)
    (loop : List (Vec ℝ) → Option (List (TimeItem ℝ))) (u₀ u' : List (Vec ℝ)) (t : List (List ℤ))
    (bc : List ((ℕ × ℕ) × ℝ)) (steps : ℕ) (conv : Bool)
    (hloop : ∀ u items, SameDofs u₀ u → loop u = some items → ∀ it ∈ items, it.Sound t u₀)
    (h : timeAnalysis s joint dt theta loop u₀ t bc steps = some (u', conv)) :
    ∃ U : ℕ → List (Vec ℝ), (∀ n d, nodal (U 0) n d = (lastValue bc n d).or (nodal u₀ n d)) ∧ U steps = u' ∧
      (∀ k ≤ steps, ∀ n d, ¬ IsFree t bc (n, d) → nodal (U k) n d = (lastValue bc n d).or (nodal u₀ n d)) ∧
      (∀ k < steps, ∃ items, loop (U k) = some items) ∧
      (conv = true ↔ ∀ k < steps, ∀ items, loop (U k) = some items →
        StepMet items dt theta t bc (valOf (U k)) (valOf (U (k + 1)))) := by
  unfold timeAnalysis at h
  simp only [Option.bind_eq_bind, Option.bind_eq_some_iff, Prod.exists] at h
  obtain ⟨w, t₁, h1, h2⟩ := h
  obtain ⟨U, b1, b2, b3, b4, b5, b6⟩ := run_spec s hs joint hdt loop h1 hloop steps w u' conv (setDirichlet_same h1) h2
  have h0 := (C21_setDirichlet u₀ w t t₁ bc h1).2.2
  refine ⟨U, fun n d => by rw [b1, (h0 n d).2], b2, ?_, b5, b6⟩
  intro k
  induction k with
  | zero => intro _ n d _; rw [b1, (h0 n d).2]
  | succ k ih => intro hk n d hn; rw [b3 k (by omega) n d hn, ih (by omega) n d hn]

/-! ### Work of a step -/

theorem form_add_left (calls : List (AsmCall ℝ)) (a b c : ℕ → ℕ → ℝ) :
    energy calls (a + b) c = energy calls a c + energy calls b c := by
  unfold energy
  simp only [Pi.add_apply, add_mul, List.sum_map_add]

theorem form_smul_left (calls : List (AsmCall ℝ)) (r : ℝ) (a c : ℕ → ℕ → ℝ) :
    energy calls (r • a) c = r * energy calls a c := by
  unfold energy
  simp only [Pi.smul_apply, smul_eq_mul, mul_assoc, list_sum_mul_left]

theorem form_add_right (calls : List (AsmCall ℝ)) (a b c : ℕ → ℕ → ℝ) :
    energy calls c (a + b) = energy calls c a + energy calls c b := by
  unfold energy
  simp only [Pi.add_apply, mul_add, List.sum_map_add]

theorem form_smul_right (calls : List (AsmCall ℝ)) (r : ℝ) (a c : ℕ → ℕ → ℝ) :
    energy calls c (r • a) = r * energy calls c a := by
  unfold energy
  simp only [Pi.smul_apply, smul_eq_mul, mul_assoc, list_sum_mul_left, mul_left_comm]

/-- The bilinear form of the calls. -/
noncomputable def energyForm (calls : List (AsmCall ℝ)) : (ℕ → ℕ → ℝ) →ₗ[ℝ] (ℕ → ℕ → ℝ) →ₗ[ℝ] ℝ :=
  LinearMap.mk₂ ℝ (energy calls) (form_add_left calls) (form_smul_left calls) (fun c a b => form_add_right calls a b c)
    (fun r c a => form_smul_right calls r a c)

theorem energyForm_apply (calls : List (AsmCall ℝ)) (v w : ℕ → ℕ → ℝ) : energyForm calls v w = energy calls v w := rfl

theorem form_symm {calls : List (AsmCall ℝ)} (h : SymmetricCalls calls) (v w : ℕ → ℕ → ℝ) :
    energy calls v w = energy calls w v := by
  unfold energy
  refine congrArg List.sum (List.map_congr_left fun c hc => ?_)
  simp only [list_sum_mul_left]
  rw [list_sum_comm]
  refine congrArg List.sum (List.map_congr_left fun q hq => congrArg List.sum (List.map_congr_left fun p hp => ?_))
  rw [h c hc p hp q hq]
  ring

/-- The virtual work of the residual of a time step. -/
theorem timeResidual_work {t : List (List ℤ)} {u₀ : List (Vec ℝ)} {items : List (TimeItem ℝ)}
    (hs : ∀ it ∈ items, it.Sound t u₀) (dt theta : ℝ) (u v w : ℕ → ℕ → ℝ) :
    ((allDofs t).map fun p => w p.1 p.2 * timeResidual items dt theta u v p.1 p.2).sum =
      energy (items.map TimeItem.mass) w (dt⁻¹ • (v - u)) +
      energy (items.map TimeItem.stiff) w (theta • v + (1 - theta) • u) -
      ((items.map TimeItem.source).map fun c => callLoad c w).sum := by
  have hd : ∀ f : TimeItem ℝ → AsmCall ℝ, (∀ it, (f it).dofs = localDofs it.nte it.element) →
      ∀ c ∈ items.map f, ∀ p ∈ c.dofs, (dofNum t p.1 p.2.1).isSome := by
    intro f hf c hc p hp
    obtain ⟨it, hit, rfl⟩ := List.mem_map.1 hc
    rw [hf it] at hp
    exact ((hs it hit).fits p hp).1
  have h1 := residual_work (hd TimeItem.mass fun _ => rfl) (fun a b => (v a b - u a b) / dt) w
  have h2 := residual_work (hd TimeItem.stiff fun _ => rfl) (fun a b => theta * v a b + (1 - theta) * u a b) w
  have h3 := residual_work (hd TimeItem.source fun _ => rfl) (fun _ _ => 0) w
  have z1 : ((items.map TimeItem.mass).map fun c => callLoad c w).sum = 0 := by
    rw [List.map_map]
    refine List.sum_eq_zero fun r hr => ?_
    obtain ⟨it, -, rfl⟩ := List.mem_map.1 hr
    simp [callLoad, TimeItem.mass, AsmCall.rhs]
  have z2 : ((items.map TimeItem.stiff).map fun c => callLoad c w).sum = 0 := by
    rw [List.map_map]
    refine List.sum_eq_zero fun r hr => ?_
    obtain ⟨it, -, rfl⟩ := List.mem_map.1 hr
    simp [callLoad, TimeItem.stiff, AsmCall.rhs]
  have z3 : energy (items.map TimeItem.source) w (fun _ _ => 0) = 0 := by
    simp [energy, Function.comp_def]
  have z4 : ∀ p : ℕ × ℕ, residual (items.map TimeItem.source) (fun _ _ => 0) p.1 p.2 =
      - loadAt (items.map TimeItem.source) p.1 p.2 := fun p => residual_loads (by
    intro c hc a b
    obtain ⟨it, -, rfl⟩ := List.mem_map.1 hc
    rfl) _ _ _
  have e1 : (fun a b => (v a b - u a b) / dt) = dt⁻¹ • (v - u) := by
    funext a b; simp [div_eq_inv_mul]
  have e2 : (fun a b => theta * v a b + (1 - theta) * u a b) = theta • v + (1 - theta) • u := by
    funext a b; simp
  rw [z1, sub_zero, e1] at h1
  rw [z2, sub_zero, e2] at h2
  rw [z3, zero_sub] at h3
  rw [← h1, ← h2, sub_eq_add_neg, ← h3, ← List.sum_map_add, ← List.sum_map_add]
  refine congrArg List.sum (List.map_congr_left fun p _ => ?_)
  rw [z4, ← e1, ← e2]
  unfold timeResidual
  ring

/-- An exact step does no work on fields that vanish at the held dofs. -/
theorem exact_work {t : List (List ℤ)} {u₀ : List (Vec ℝ)} {items : List (TimeItem ℝ)} {bc : List ((ℕ × ℕ) × ℝ)}
    {dt theta : ℝ} {u v : ℕ → ℕ → ℝ} (hs : ∀ it ∈ items, it.Sound t u₀) (h : ExactStep items dt theta t bc u v)
    (w : ℕ → ℕ → ℝ) (hw : ∀ p ∈ allDofs t, ¬ IsFree t bc (p.1, p.2) → w p.1 p.2 = 0) :
    energy (items.map TimeItem.mass) w (dt⁻¹ • (v - u)) +
      energy (items.map TimeItem.stiff) w (theta • v + (1 - theta) • u) =
      ((items.map TimeItem.source).map fun c => callLoad c w).sum := by
  have := timeResidual_work hs dt theta u v w
  rw [List.sum_eq_zero, eq_comm, sub_eq_zero] at this
  · exact this
  · intro r hr
    obtain ⟨p, hp, rfl⟩ := List.mem_map.1 hr
    by_cases hf : IsFree t bc (p.1, p.2)
    · rw [h.1 p (List.mem_filter.2 ⟨hp, decide_eq_true hf⟩), mul_zero]
    · rw [hw p hp hf, zero_mul]

/-! ### Exact steps -/

/-- The derivative of the residual with respect to the new field. -/
noncomputable def stepForm (items : List (TimeItem ℝ)) (dt theta : ℝ) (n d : ℕ) : (ℕ → ℕ → ℝ) →ₗ[ℝ] ℝ :=
  dt⁻¹ • energyForm (items.map TimeItem.mass) (unitField n d) +
    theta • energyForm (items.map TimeItem.stiff) (unitField n d)

theorem timeResidual_affine (items : List (TimeItem ℝ)) (dt theta : ℝ) (u v w : ℕ → ℕ → ℝ) (n d : ℕ) :
    timeResidual items dt theta u (v + w) n d = timeResidual items dt theta u v n d +
      stepForm items dt theta n d w := by
  have e1 : ∀ v : ℕ → ℕ → ℝ, (fun a b => (v a b - u a b) / dt) = dt⁻¹ • (v - u) := by
    intro v; funext a b; simp [div_eq_inv_mul]
  have e2 : ∀ v : ℕ → ℕ → ℝ, (fun a b => theta * v a b + (1 - theta) * u a b) = theta • v + (1 - theta) • u := by
    intro v; funext a b; simp
  unfold timeResidual
  rw [e1, e1, e2, e2]
  simp only [residual_eq, ← energyForm_apply, stepForm, map_add, map_sub, map_smul, LinearMap.add_apply,
    LinearMap.smul_apply, smul_eq_mul]
  ring

theorem stepForm_work {t : List (List ℤ)} {u₀ : List (Vec ℝ)} {items : List (TimeItem ℝ)}
    (hs : ∀ it ∈ items, it.Sound t u₀) (dt theta : ℝ) (w : ℕ → ℕ → ℝ) :
    ((allDofs t).map fun p => w p.1 p.2 * stepForm items dt theta p.1 p.2 w).sum =
      energy (items.map TimeItem.mass) w w / dt + theta * energy (items.map TimeItem.stiff) w w := by
  have h1 := timeResidual_work hs dt theta 0 w w
  have h2 := timeResidual_work hs dt theta 0 0 w
  have e : ∀ p : ℕ × ℕ, w p.1 p.2 * timeResidual items dt theta 0 w p.1 p.2 =
      w p.1 p.2 * timeResidual items dt theta 0 0 p.1 p.2 + w p.1 p.2 * stepForm items dt theta p.1 p.2 w := by
    intro p
    have := timeResidual_affine items dt theta 0 0 w p.1 p.2
    rw [zero_add] at this
    rw [this]
    ring
  simp only [e, List.sum_map_add] at h1
  rw [h2] at h1
  simp only [← energyForm_apply, sub_zero, smul_zero, add_zero, map_zero, map_smul, smul_eq_mul] at h1 ⊢
  rw [div_eq_inv_mul]
  linarith

/-- **C112**: if `M/dt + theta K` is positive on the fields that vanish at the held dofs there is exactly one exact
step from every field. -/
theorem C112_exact (items : List (TimeItem ℝ)) (dt theta : ℝ) (t : List (List ℤ)) (u₀ : List (Vec ℝ))
    (bc : List ((ℕ × ℕ) × ℝ)) (hs : ∀ it ∈ items, it.Sound t u₀)
    (hpos : ∀ v : ℕ → ℕ → ℝ, (∀ n d, ¬ IsFree t bc (n, d) → v n d = 0) → (∃ n d, v n d ≠ 0) →
      0 < energy (items.map TimeItem.mass) v v / dt + theta * energy (items.map TimeItem.stiff) v v)
    (u : ℕ → ℕ → ℝ) : ∃! v, ExactStep items dt theta t bc u v := by
  have hmem : ∀ n d, IsFree t bc (n, d) ↔ (n, d) ∈ freeDofs t bc := by
    intro n d
    refine ⟨fun h => List.mem_filter.2 ⟨mem_allDofs (by rw [dofNum_of_numOf h.1]; rfl), decide_eq_true h⟩,
      fun h => of_decide_eq_true (List.mem_filter.1 h).2⟩
  have hzero : ∀ w : ℕ → ℕ → ℝ, (∀ n d, ¬ IsFree t bc (n, d) → w n d = 0) →
      (∀ p ∈ freeDofs t bc, stepForm items dt theta p.1 p.2 w = 0) → w = 0 := by
    intro w h1 h2
    by_contra hne
    have h3 := hpos w h1 (by
      by_contra hc
      push Not at hc
      exact hne (funext fun n => funext fun d => hc n d))
    rw [← stepForm_work hs, List.sum_eq_zero] at h3
    · exact lt_irrefl _ h3
    · intro r hr
      obtain ⟨p, hp, rfl⟩ := List.mem_map.1 hr
      by_cases hf : IsFree t bc (p.1, p.2)
      · rw [h2 p ((hmem _ _).1 hf), mul_zero]
      · rw [h1 _ _ hf, zero_mul]
  let F := {p : ℕ × ℕ // p ∈ freeDofs t bc}
  haveI : Finite F := (List.finite_toSet (freeDofs t bc)).to_subtype
  let ext : (F → ℝ) →ₗ[ℝ] (ℕ → ℕ → ℝ) :=
    { toFun := fun y n d => if h : (n, d) ∈ freeDofs t bc then y ⟨(n, d), h⟩ else 0
      map_add' := by intro a b; funext n d; simp only [Pi.add_apply]; split_ifs <;> simp
      map_smul' := by
        intro r a; funext n d
        simp only [Pi.smul_apply, RingHom.id_apply]; split_ifs <;> simp }
  have hext0 : ∀ y n d, ¬ IsFree t bc (n, d) → ext y n d = 0 := by
    intro y n d h
    exact dif_neg fun hc => h ((hmem n d).2 hc)
  let L : (F → ℝ) →ₗ[ℝ] (F → ℝ) := LinearMap.pi fun p => (stepForm items dt theta p.1.1 p.1.2).comp ext
  have hinj : Function.Injective L := by
    rw [← LinearMap.ker_eq_bot, LinearMap.ker_eq_bot']
    intro y hy
    have := hzero (ext y) (hext0 y) fun p hp => congrFun hy ⟨p, hp⟩
    funext p
    have h1 := congrFun (congrFun this p.1.1) p.1.2
    have h2 : ext y p.1.1 p.1.2 = y p := dif_pos p.2
    rw [← h2, h1]
    rfl
  obtain ⟨y, hy⟩ := LinearMap.surjective_of_injective hinj fun p => - timeResidual items dt theta u u p.1.1 p.1.2
  refine ⟨u + ext y, ⟨fun p hp => ?_, fun n d hn => ?_⟩, fun v hv => ?_⟩
  · rw [timeResidual_affine]
    have : stepForm items dt theta p.1 p.2 (ext y) = _ := congrFun hy ⟨p, hp⟩
    rw [this]
    ring
  · simp [hext0 y n d hn]
  · have := hzero (v - (u + ext y)) (fun n d hn => by
      have h1 := hv.2 n d hn
      have h2 := hext0 y n d hn
      simp [h1, h2]) fun p hp => by
      have h1 := hv.1 p hp
      have h2 := timeResidual_affine items dt theta u u (v - u) p.1 p.2
      rw [add_sub_cancel, h1] at h2
      have h3 : stepForm items dt theta p.1 p.2 (ext y) = _ := congrFun hy ⟨p, hp⟩
      rw [← sub_sub, map_sub, h3]
      linarith
    exact sub_eq_zero.1 this

/-! ### Dissipation -/

/-- A steady field: the stiffness terms balance the sources at the free dofs. -/
def Steady (items : List (TimeItem ℝ)) (t : List (List ℤ)) (bc : List ((ℕ × ℕ) × ℝ)) (S : ℕ → ℕ → ℝ) : Prop :=
  ∀ p ∈ freeDofs t bc, residual (items.map TimeItem.stiff) S p.1 p.2 = loadAt (items.map TimeItem.source) p.1 p.2

theorem steady_exact {t : List (List ℤ)} {items : List (TimeItem ℝ)} {bc : List ((ℕ × ℕ) × ℝ)} {S : ℕ → ℕ → ℝ}
    (dt theta : ℝ) : Steady items t bc S ↔ ExactStep items dt theta t bc S S := by
  unfold Steady ExactStep timeResidual
  have e1 : (fun a b => (S a b - S a b) / dt) = fun _ _ => 0 := by funext a b; simp
  have e2 : (fun a b => theta * S a b + (1 - theta) * S a b) = S := by funext a b; ring
  have e3 : ∀ n d, residual (items.map TimeItem.mass) (fun _ _ => (0 : ℝ)) n d = 0 := by
    intro n d
    unfold residual
    rw [List.map_map]
    refine List.sum_eq_zero fun r hr => ?_
    obtain ⟨it, -, rfl⟩ := List.mem_map.1 hr
    simp [TimeItem.mass, AsmCall.rhs]
  simp only [e1, e2, e3, zero_add, sub_eq_zero, implies_true, and_true]

/-- **C112**: the energy balance of an exact step.  With a symmetric mass matrix, for every steady field `S` with the
boundary values of `u` and `w = theta v + (1 - theta) u - S` the mass energy of the distance to `S` changes by
`- 2 dt K(w, w) - (2 theta - 1) M(v - u, v - u)`. -/
theorem C112_balance (items : List (TimeItem ℝ)) (dt theta : ℝ) (t : List (List ℤ)) (u₀ : List (Vec ℝ))
    (bc : List ((ℕ × ℕ) × ℝ)) (hdt : dt ≠ 0) (hs : ∀ it ∈ items, it.Sound t u₀)
    (hM : SymmetricCalls (items.map TimeItem.mass)) (S u v : ℕ → ℕ → ℝ) (hS : Steady items t bc S)
    (hb : ∀ n d, ¬ IsFree t bc (n, d) → u n d = S n d) (h : ExactStep items dt theta t bc u v) :
    energy (items.map TimeItem.mass) (v - S) (v - S) = energy (items.map TimeItem.mass) (u - S) (u - S)
      - 2 * dt * energy (items.map TimeItem.stiff) (theta • v + (1 - theta) • u - S) (theta • v + (1 - theta) • u - S)
      - (2 * theta - 1) * energy (items.map TimeItem.mass) (v - u) (v - u) := by
  set w := theta • v + (1 - theta) • u - S with hw
  have hw0 : ∀ n d, ¬ IsFree t bc (n, d) → w n d = 0 := by
    intro n d hn
    have h1 := h.2 n d hn
    have h2 := hb n d hn
    simp only [hw, Pi.sub_apply, Pi.add_apply, Pi.smul_apply, smul_eq_mul]
    rw [h1, h2]
    ring
  have a1 := exact_work hs h w fun p _ => hw0 p.1 p.2
  have a2 := exact_work hs ((steady_exact dt theta).1 hS) w fun p _ => hw0 p.1 p.2
  have e3 : theta • v + (1 - theta) • u = w + S := by rw [hw]; abel
  have e4 : theta • S + (1 - theta) • S = S := by rw [← add_smul]; simp
  rw [e3, ← a2, e4, sub_self, smul_zero] at a1
  have hv : v - S = w + (1 - theta) • (v - u) := by rw [hw]; module
  have hu : u - S = w - theta • (v - u) := by rw [hw]; module
  have hsym := form_symm hM w (v - u)
  rw [hv, hu]
  simp only [← energyForm_apply] at a1 hsym ⊢
  simp only [map_add, map_sub, map_smul, LinearMap.add_apply, LinearMap.sub_apply, LinearMap.smul_apply, smul_eq_mul,
    map_zero, zero_add] at a1 hsym ⊢
  rw [← mul_right_inj' hdt] at a1
  field_simp at a1
  linarith

/-- **C112**: for `theta ≥ 1/2` an exact step does not increase the mass energy of the distance to a steady field. -/
theorem C112_stable (items : List (TimeItem ℝ)) (dt theta : ℝ) (t : List (List ℤ)) (u₀ : List (Vec ℝ))
    (bc : List ((ℕ × ℕ) × ℝ)) (hdt : 0 < dt) (hth : 1 / 2 ≤ theta) (hs : ∀ it ∈ items, it.Sound t u₀)
    (hM : SymmetricCalls (items.map TimeItem.mass)) (hM0 : ∀ v, 0 ≤ energy (items.map TimeItem.mass) v v)
    (hK0 : ∀ v, 0 ≤ energy (items.map TimeItem.stiff) v v) (S u v : ℕ → ℕ → ℝ) (hS : Steady items t bc S)
    (hb : ∀ n d, ¬ IsFree t bc (n, d) → u n d = S n d) (h : ExactStep items dt theta t bc u v) :
    energy (items.map TimeItem.mass) (v - S) (v - S) ≤ energy (items.map TimeItem.mass) (u - S) (u - S) := by
  rw [C112_balance items dt theta t u₀ bc hdt.ne' hs hM S u v hS hb h]
  have h1 := hK0 (theta • v + (1 - theta) • u - S)
  have h2 := mul_nonneg (by linarith : 0 ≤ 2 * theta - 1) (hM0 (v - u))
  nlinarith

/-- **C112**: over any number of exact steps with `theta ≥ 1/2` the stiffness energies of the intermediate fields add
up to at most the initial mass energy: the steps approach the steady field. -/
theorem C112_dissipated (items : List (TimeItem ℝ)) (dt theta : ℝ) (t : List (List ℤ)) (u₀ : List (Vec ℝ))
    (bc : List ((ℕ × ℕ) × ℝ)) (hdt : 0 < dt) (hth : 1 / 2 ≤ theta) (hs : ∀ it ∈ items, it.Sound t u₀)
    (hM : SymmetricCalls (items.map TimeItem.mass)) (hM0 : ∀ v, 0 ≤ energy (items.map TimeItem.mass) v v)
    (S : ℕ → ℕ → ℝ) (U : ℕ → ℕ → ℕ → ℝ) (hS : Steady items t bc S)
    (hb : ∀ n d, ¬ IsFree t bc (n, d) → U 0 n d = S n d) (steps : ℕ)
    (h : ∀ k < steps, ExactStep items dt theta t bc (U k) (U (k + 1))) :
    energy (items.map TimeItem.mass) (U steps - S) (U steps - S) +
      2 * dt * (∑ k ∈ Finset.range steps, energy (items.map TimeItem.stiff)
        (theta • U (k + 1) + (1 - theta) • U k - S) (theta • U (k + 1) + (1 - theta) • U k - S)) ≤
      energy (items.map TimeItem.mass) (U 0 - S) (U 0 - S) := by
  induction steps with
  | zero => simp
  | succ m ih =>
    have hbk : ∀ k ≤ m, ∀ n d, ¬ IsFree t bc (n, d) → U k n d = S n d := by
      intro k
      induction k with
      | zero => intro _; exact hb
      | succ k ihk => intro hk n d hn; rw [(h k (by omega)).2 n d hn, ihk (by omega) n d hn]
    have h1 := C112_balance items dt theta t u₀ bc hdt.ne' hs hM S (U m) (U (m + 1)) hS (hbk m le_rfl) (h m (by omega))
    have h2 := ih fun k hk => h k (by omega)
    have h3 := mul_nonneg (by linarith : 0 ≤ 2 * theta - 1) (hM0 (U (m + 1) - U m))
    rw [Finset.sum_range_succ]
    linarith

/-- **C112**: conservation.  If no dof at which `φ` is not zero is held and the stiffness matrix does no work on `φ`,
an exact step changes the content `M(φ, u)` by `dt` times the sources. -/
theorem C112_content (items : List (TimeItem ℝ)) (dt theta : ℝ) (t : List (List ℤ)) (u₀ : List (Vec ℝ))
    (bc : List ((ℕ × ℕ) × ℝ)) (hdt : dt ≠ 0) (hs : ∀ it ∈ items, it.Sound t u₀) (φ u v : ℕ → ℕ → ℝ)
    (hφ : ∀ p ∈ allDofs t, ¬ IsFree t bc (p.1, p.2) → φ p.1 p.2 = 0) (hK : ∀ w, energy (items.map TimeItem.stiff) φ w = 0)
    (h : ExactStep items dt theta t bc u v) :
    energy (items.map TimeItem.mass) φ v = energy (items.map TimeItem.mass) φ u +
      dt * ((items.map TimeItem.source).map fun c => callLoad c φ).sum := by
  have a1 := exact_work hs h φ hφ
  rw [hK, add_zero] at a1
  rw [← a1, form_smul_right, mul_inv_cancel_left₀ hdt]
  simp only [← energyForm_apply, map_sub]
  ring

/-! ### One dof -/

/-- An element with one dof. -/
def dotItem (m k : ℝ) (f : Option ℝ) : TimeItem ℝ := ⟨⟨1, 1, [m]⟩, ⟨1, 1, [k]⟩, f.map fun r => ⟨[r]⟩, [[(0, 0)]], [0]⟩

/-- A field on one dof. -/
def dotField (a : ℝ) (n d : ℕ) : ℝ := if n = 0 ∧ d = 0 then a else 0

theorem dot_sound (m k : ℝ) (f : Option ℝ) : ∀ it ∈ [dotItem m k f], it.Sound [[0]] [⟨[0]⟩] := by
  intro it hit
  rw [List.mem_singleton.1 hit]
  refine ⟨rfl, rfl, ⟨rfl, ?_, rfl, rfl⟩, ⟨rfl, ?_, rfl, rfl⟩, ?_, ?_⟩
  · simp [dotItem, localDofs, List.range_succ]
  · simp [dotItem, localDofs, List.range_succ]
  · simp [dotItem, localDofs, dofNum, nodal, Vec.at?, Vec.size]
  · cases f <;> simp [dotItem, localDofs, Vec.size]

theorem dot_energy (m k : ℝ) (f : Option ℝ) (v w : ℕ → ℕ → ℝ) :
    energy ([dotItem m k f].map TimeItem.mass) v w = m * (v 0 0 * w 0 0) ∧
    energy ([dotItem m k f].map TimeItem.stiff) v w = k * (v 0 0 * w 0 0) := by
  simp [energy, dotItem, TimeItem.mass, TimeItem.stiff, AsmCall.dofs, AsmCall.mat, localDofs, Mat.at?]
  exact ⟨by ring, by ring⟩

theorem dot_exact (m k dt theta : ℝ) (f : Option ℝ) (a b : ℝ) :
    ExactStep [dotItem m k f] dt theta [[0]] [] (dotField a) (dotField b) ↔
      m * ((b - a) / dt) + k * (theta * b + (1 - theta) * a) = f.getD 0 := by
  have hf : freeDofs [[0]] ([] : List ((ℕ × ℕ) × ℝ)) = [(0, 0)] := by decide +kernel
  unfold ExactStep timeResidual
  rw [hf]
  have : ∀ n d, ¬ IsFree [[0]] ([] : List ((ℕ × ℕ) × ℝ)) (n, d) → dotField b n d = dotField a n d := by
    intro n d h
    have : ¬ (n = 0 ∧ d = 0) := by
      rintro ⟨rfl, rfl⟩
      exact h (by decide +kernel)
    simp [dotField, this]
  rw [and_iff_left this]
  simp only [List.mem_singleton, forall_eq]
  rw [← sub_eq_zero (b := f.getD 0)]
  cases f <;> simp [residual, loadAt, dotItem, TimeItem.mass, TimeItem.stiff, TimeItem.source, AsmCall.dofs, AsmCall.mat,
    AsmCall.rhs, localDofs, Mat.at?, Vec.at?, Vec.size, dotField]

theorem dot_symm (m k : ℝ) (f : Option ℝ) : SymmetricCalls ([dotItem m k f].map TimeItem.mass) := by
  intro c hc p hp q hq
  simp only [List.map_cons, List.map_nil, List.mem_singleton] at hc
  subst hc
  simp [dotItem, TimeItem.mass, AsmCall.dofs, localDofs] at hp hq
  rw [hp, hq]

theorem dot_steady (m k : ℝ) : Steady [dotItem m k none] [[0]] [] (dotField 0) := by
  rw [steady_exact 1 1, dot_exact]
  simp

/-- `theta = 1/2`: the value is divided by three; the energy decreases. -/
example : ExactStep [dotItem 1 1 none] 1 (1 / 2) [[0]] [] (dotField 6) (dotField 2) ∧
    energy ([dotItem 1 1 none].map TimeItem.mass) (dotField 2 - dotField 0) (dotField 2 - dotField 0) ≤
      energy ([dotItem 1 1 none].map TimeItem.mass) (dotField 6 - dotField 0) (dotField 6 - dotField 0) := by
  have h : ExactStep [dotItem 1 1 none] 1 (1 / 2) [[0]] [] (dotField 6) (dotField 2) := by
    rw [dot_exact]; norm_num
  refine ⟨h, C112_stable _ 1 (1 / 2) [[0]] [⟨[0]⟩] [] (by norm_num) le_rfl (dot_sound 1 1 none) (dot_symm 1 1 none)
    (fun v => ?_) (fun v => ?_) _ _ _ (dot_steady 1 1) (fun n d hn => ?_) h⟩
  · rw [(dot_energy _ _ _ _ _).1]; nlinarith [sq_nonneg (v 0 0)]
  · rw [(dot_energy _ _ _ _ _).2]; nlinarith [sq_nonneg (v 0 0)]
  · have : ¬ (n = 0 ∧ d = 0) := by
      rintro ⟨rfl, rfl⟩
      exact hn (by decide +kernel)
    simp [dotField, this]

/-- **C112**: without `theta ≥ 1/2` the energy may grow: the explicit scheme with a large step doubles the value. -/
theorem C112_growth : ExactStep [dotItem 1 1 none] 3 0 [[0]] [] (dotField 1) (dotField (-2)) ∧
    energy ([dotItem 1 1 none].map TimeItem.mass) (dotField (-2) - dotField 0) (dotField (-2) - dotField 0) =
      4 * energy ([dotItem 1 1 none].map TimeItem.mass) (dotField 1 - dotField 0) (dotField 1 - dotField 0) := by
  refine ⟨by rw [dot_exact]; norm_num, ?_⟩
  rw [(dot_energy _ _ _ _ _).1, (dot_energy _ _ _ _ _).1]
  simp [dotField]
  norm_num

/-- Two steps to the steady value. -/
example : energy ([dotItem 1 1 none].map TimeItem.mass) (dotField 1 - dotField 0) (dotField 1 - dotField 0) +
    2 * 1 * (∑ k ∈ Finset.range 2, energy ([dotItem 1 1 none].map TimeItem.stiff)
      ((1 / 2 : ℝ) • (fun k => dotField (9 / 3 ^ k)) (k + 1) + (1 - 1 / 2 : ℝ) • (fun k => dotField (9 / 3 ^ k)) k - dotField 0)
      ((1 / 2 : ℝ) • (fun k => dotField (9 / 3 ^ k)) (k + 1) + (1 - 1 / 2 : ℝ) • (fun k => dotField (9 / 3 ^ k)) k - dotField 0)) ≤
    energy ([dotItem 1 1 none].map TimeItem.mass) (dotField 9 - dotField 0) (dotField 9 - dotField 0) := by
  have := C112_dissipated _ 1 (1 / 2) [[0]] [⟨[0]⟩] [] (by norm_num) le_rfl (dot_sound 1 1 none) (dot_symm 1 1 none)
    (fun v => by rw [(dot_energy _ _ _ _ _).1]; nlinarith [sq_nonneg (v 0 0)]) (dotField 0)
    (fun k => dotField (9 / 3 ^ k)) (dot_steady 1 1) (fun n d hn => by
      have : ¬ (n = 0 ∧ d = 0) := by
        rintro ⟨rfl, rfl⟩
        exact hn (by decide +kernel)
      simp [dotField, this]) 2 (fun k _ => by
      rw [dot_exact, pow_succ]
      simp only [Option.getD_none]
      field_simp
      norm_num)
  simpa [show (9 : ℝ) / 3 ^ 2 = 1 by norm_num] using this

/-- A source of 6 into a capacity of 2 for one half. -/
example : energy ([dotItem 2 0 (some 6)].map TimeItem.mass) (fun _ _ => 1) (dotField (5 / 2)) =
    energy ([dotItem 2 0 (some 6)].map TimeItem.mass) (fun _ _ => 1) (dotField 1) +
      1 / 2 * (([dotItem 2 0 (some 6)].map TimeItem.source).map fun c => callLoad c (fun _ _ => 1)).sum := by
  refine C112_content _ (1 / 2) (1 / 2) [[0]] [⟨[0]⟩] [] (by norm_num) (dot_sound 2 0 (some 6)) _ _ _ ?_ ?_ ?_
  · intro p hp hn
    have : allDofs [[0]] = [(0, 0)] := by decide +kernel
    rw [this, List.mem_singleton] at hp
    subst hp
    exact absurd (by decide +kernel) hn
  · intro w
    rw [(dot_energy _ _ _ _ _).2]
    ring
  · rw [dot_exact]
    norm_num

/-- The exact step is unique. -/
example : ∃! v, ExactStep [dotItem 1 1 none] 1 (1 / 2) [[0]] [] (dotField 6) v := by
  refine C112_exact _ 1 (1 / 2) [[0]] [⟨[0]⟩] [] (dot_sound 1 1 none) (fun v hv hne => ?_) _
  rw [(dot_energy _ _ _ _ _).1, (dot_energy _ _ _ _ _).2]
  obtain ⟨n, d, h⟩ := hne
  have h0 : n = 0 ∧ d = 0 := by
    by_contra hc
    refine h (hv n d fun hf => hc ?_)
    have h1 : (n, d) ∈ allDofs [[0]] := mem_allDofs (by rw [dofNum_of_numOf hf.1]; rfl)
    rw [show allDofs [[0]] = [(0, 0)] by decide +kernel, List.mem_singleton] at h1
    exact Prod.mk.inj h1
  obtain ⟨rfl, rfl⟩ := h0
  have := mul_self_pos.2 h
  linarith

/-- From the zero field the program breaks down. -/
example : thetaStep useScalingCG false 1 (1 / 2) (fun _ => some [dotItem 1 1 none]) (renumbering [[0]]).1
    (renumbering [[0]]).2 [⟨[0]⟩] = none := by
  refine C112_still (t := [[0]]) (bc := []) useScalingCG useScalingCG_breaks false one_ne_zero _ [⟨[0]⟩] [⟨[0]⟩] [[0]]
    rfl rfl (fun _ _ => rfl) (dot_sound 1 1 none) ?_
  have h := (dot_exact 1 1 1 (1 / 2) none 0 0).2 (by simp)
  have e1 : valOf [(⟨[0]⟩ : Vec ℝ)] = dotField 0 := by
    funext n d
    rcases n with _ | n <;> rcases d with _ | d <;> simp [valOf, nodal, Vec.at?, Vec.size, dotField]
  have e2 : held [[0]] [] (dotField 0) = dotField 0 := by
    funext n d
    simp [held, dotField]
  rw [e1, e2]
  exact h.1

end Pansfem
