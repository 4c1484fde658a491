/-
C113: the Newton loops.

The test of the solid programs compares the square of the norm of `R` with the norm of the loads, and `R` contains
the products of the element matrices with the prescribed displacements.  The claim fails for small loads and for
prescribed displacements that are not zero; what holds is `C113_analysis_partial`.
-/
import Verif.Lemmas.ProgramNewton

namespace Pansfem

section
variable {s : LinSolver} {own : Bool} {test : ℝ → Option Bool} {loop : List (Vec ℝ) → Option (List (AsmCall ℝ))}
  {z w : List (Vec ℝ)} {t t₁ : List (List ℤ)} {bc : List ((ℕ × ℕ) × ℝ)}

/-- The element routines and loads fit the tables for every field. -/
def LoopFits (loop : List (Vec ℝ) → Option (List (AsmCall ℝ))) (t : List (List ℤ)) (z : List (Vec ℝ)) : Prop :=
  ∀ u calls, SameDofs z u → loop u = some calls → ∀ c ∈ calls, c.Fits t z

theorem newtonIter_loop {N : ℕ} {u : List (Vec ℝ)} {r : Option (List (Vec ℝ) × Bool)}
    (h : newtonIter s own test loop t N z u = some r) : ∃ calls, loop u = some calls := by
  unfold newtonIter at h
  cases hl : loop u with
  | none => simp [hl] at h
  | some calls => exact ⟨calls, rfl⟩

/-- **C113**: a Newton loop keeps the values of the dofs that are not free, and if it is left through `break`, the
test holds for the square of the norm of `R` at the field it leaves. -/
theorem C113_loop (hs : s.Certifies) (hset : setDirichlet z t bc = some (w, t₁)) (hfit : LoopFits loop t z)
    (hz : ∀ n d, valOf z n d = 0) : ∀ (k : ℕ) (u u' : List (Vec ℝ)) (left : Bool), SameDofs z u →
    newtonLoop s own test loop (renumbering t₁).1 (renumbering t₁).2 z k u = some (u', left) →
    SameDofs z u' ∧ (∀ n d, ¬ IsFree t bc (n, d) → nodal u' n d = nodal u n d) ∧
    (left = true → ∃ calls, loop u' = some calls ∧ test (passNorm own t bc calls (valOf u') ^ 2) = some true) := by
  intro k
  induction k with
  | zero =>
    intro u u' left hu h
    simp only [newtonLoop, Option.some.injEq, Prod.mk.injEq] at h
    obtain ⟨rfl, rfl⟩ := h
    exact ⟨hu, fun _ _ _ => rfl, by simp⟩
  | succ k ih =>
    intro u u' left hu h
    simp only [newtonLoop, Option.bind_eq_bind, Option.bind_eq_some_iff] at h
    obtain ⟨r, hr, h⟩ := h
    obtain ⟨calls, hl⟩ := newtonIter_loop hr
    rcases newtonIter_spec hs hset hu hl (hfit u calls hu hl) hz hr with ⟨rfl, ht⟩ | ⟨v, conv, rfl, -, h1, h2, -⟩
    · simp only [Option.pure_def, Option.some.injEq, Prod.mk.injEq] at h
      obtain ⟨rfl, rfl⟩ := h
      exact ⟨hu, fun _ _ _ => rfl, fun _ => ⟨calls, hl, ht⟩⟩
    · obtain ⟨a1, a2, a3⟩ := ih v u' left h1 h
      exact ⟨a1, fun n d hn => (a2 n d hn).trans (h2 n d hn), a3⟩

/-- The calls of a load step. -/
def loaded (loop : List (Vec ℝ) → Option (List (AsmCall ℝ))) (q : List ((ℕ × ℕ) × ℝ)) (u : List (Vec ℝ)) :
    Option (List (AsmCall ℝ)) := do return (← loop u) ++ [.nodal q]

theorem loaded_eq_some {loop : List (Vec ℝ) → Option (List (AsmCall ℝ))} {q : List ((ℕ × ℕ) × ℝ)} {u : List (Vec ℝ)}
    {calls : List (AsmCall ℝ)} : loaded loop q u = some calls ↔ ∃ cs, loop u = some cs ∧ calls = cs ++ [.nodal q] := by
  simp only [loaded, Option.bind_eq_bind, Option.bind_eq_some_iff, Option.pure_def, Option.some.injEq]
  exact exists_congr fun cs => and_congr_right fun _ => eq_comm

/-- The loaded dofs exist. -/
def NodalFits (q : List ((ℕ × ℕ) × ℝ)) (t : List (List ℤ)) (z : List (Vec ℝ)) : Prop :=
  ∀ p ∈ q, (dofNum t p.1.1 p.1.2).isSome ∧ (nodal z p.1.1 p.1.2).isSome

theorem NodalFits.fits {q : List ((ℕ × ℕ) × ℝ)} (h : NodalFits q t z) (c : ℝ) :
    (AsmCall.nodal (scaleValues c q)).Fits t z := by
  refine ⟨fun p hp => ?_, trivial⟩
  simp only [AsmCall.dofs, List.mem_map, Prod.exists] at hp
  obtain ⟨a, b, x, i, hi, rfl⟩ := hp
  have := List.mem_zipIdx_iff_getElem?.1 hi
  have h2 := List.mem_of_getElem? this
  unfold scaleValues at h2
  obtain ⟨r, hr, he⟩ := List.mem_map.1 h2
  have h3 := (Prod.mk.inj he).1
  have h4 := h r hr
  rw [h3] at h4
  exact h4

theorem loaded_fits {q : List ((ℕ × ℕ) × ℝ)} (hfit : LoopFits loop t z) (hq : NodalFits q t z) (c : ℝ) :
    LoopFits (loaded loop (scaleValues c q)) t z := by
  intro u calls hu h x hx
  obtain ⟨cs, h1, rfl⟩ := loaded_eq_some.1 h
  rcases List.mem_append.1 hx with h2 | h2
  · exact hfit u cs hu h1 x h2
  · rw [List.mem_singleton.1 h2]
    exact hq.fits c

/-- **C113**: the load steps keep the values of the dofs that are not free, and if every Newton loop is left through
`break`, the test of the last step holds at the result. -/
theorem C113_steps (hs : s.Certifies) (hset : setDirichlet z t bc = some (w, t₁)) (hfit : LoopFits loop t z)
    (hz : ∀ n d, valOf z n d = 0) (q : List ((ℕ × ℕ) × ℝ)) (hq : NodalFits q t z) (itr : ℕ) :
    ∀ (incs : List ℝ) (u u' : List (Vec ℝ)) (left : Bool), SameDofs z u →
    loadSteps s loop q (renumbering t₁).1 (renumbering t₁).2 z itr incs u = some (u', left) →
    SameDofs z u' ∧ (∀ n d, ¬ IsFree t bc (n, d) → nodal u' n d = nodal u n d) ∧
    (left = true → ∀ c, incs.getLast? = some c → ∃ calls, loop u' = some calls ∧
      loadNorm (scaleValues c q) ≠ 0 ∧
      passNorm true t bc (calls ++ [.nodal (scaleValues c q)]) (valOf u') ^ 2 / loadNorm (scaleValues c q)
        < 1 / 10 ^ 10) := by
  intro incs
  induction incs with
  | nil =>
    intro u u' left hu h
    simp only [loadSteps, Option.some.injEq, Prod.mk.injEq] at h
    obtain ⟨rfl, rfl⟩ := h
    exact ⟨hu, fun _ _ _ => rfl, by simp⟩
  | cons c incs ih =>
    intro u u' left hu h
    simp only [loadSteps, Option.bind_eq_bind, Option.bind_eq_some_iff, Option.pure_def, Option.some.injEq,
      Prod.mk.injEq, Prod.exists] at h
    obtain ⟨v, b, hv, y, b', hy, rfl, rfl⟩ := h
    obtain ⟨a1, a2, a3⟩ := C113_loop (loop := loaded loop (scaleValues c q)) hs hset (loaded_fits hfit hq c) hz
      itr u v b hu hv
    obtain ⟨b1, b2, b3⟩ := ih v y b' a1 hy
    refine ⟨b1, fun n d hn => (b2 n d hn).trans (a2 n d hn), fun hb c' hc' => ?_⟩
    rw [Bool.and_eq_true] at hb
    cases incs with
    | nil =>
      simp only [loadSteps, Option.some.injEq, Prod.mk.injEq] at hy
      obtain ⟨rfl, -⟩ := hy
      simp only [List.getLast?_singleton, Option.some.injEq] at hc'
      subst hc'
      obtain ⟨calls, hl, ht⟩ := a3 hb.1
      obtain ⟨cs, hcs, rfl⟩ := loaded_eq_some.1 hl
      obtain ⟨t1, t2⟩ := loadTest_eq.1 ht
      exact ⟨cs, hcs, t1, t2.1 rfl⟩
    | cons c₂ incs => exact b3 hb.2 c' (by simpa using hc')

theorem loadFactors_last {n : ℕ} (h : n ≠ 0) : (loadFactors n).getLast? = some 1 := by
  obtain ⟨m, rfl⟩ := Nat.exists_eq_succ_of_ne_zero h
  have : ((m : ℝ) + 1) ≠ 0 := by positivity
  simp [loadFactors, List.range_succ, this]

/-- What a load analysis is supposed to compute: if every Newton loop is left through `break`, the prescribed dofs
have their values and the out-of-balance forces at the free dofs are below `1e-10` times the loads. -/
def C113_claim (s : LinSolver) : Prop :=
  ∀ (loop : List (Vec ℝ) → Option (List (AsmCall ℝ))) (z : List (Vec ℝ)) (t : List (List ℤ))
    (bc q : List ((ℕ × ℕ) × ℝ)) (fincmax itr : ℕ) (u : List (Vec ℝ)), LoopFits loop t z → NodalFits q t z →
    (∀ n d, valOf z n d = 0) → fincmax ≠ 0 → loadAnalysis s loop z t bc q fincmax itr = some (u, true) →
    (∀ n d, ¬ IsFree t bc (n, d) → nodal u n d = (lastValue bc n d).or (nodal z n d)) ∧
    ∃ calls, loop u = some calls ∧ outNorm t bc (calls ++ [.nodal q]) ≤ 1 / 10 ^ 10 * loadNorm q

theorem passNorm_homogeneous {u : List (Vec ℝ)} {calls : List (AsmCall ℝ)}
    (h : ∀ n d, ¬ IsFree t bc (n, d) → valOf u n d = 0) :
    passNorm own t bc calls (valOf u) = outNorm t bc calls := by
  have : passBase own t bc (valOf u) = fun _ _ => 0 := by
    funext n d
    unfold passBase held
    cases own with
    | false => rfl
    | true =>
      by_cases hf : IsFree t bc (n, d)
      · simp [hf]
      · simp [hf, h n d hf]
  unfold passNorm outNorm
  rw [this]
  exact dofNorm_congr fun p _ => by rw [residual_zero, neg_sq]

/-- **C113**, what holds: the prescribed dofs have their values; the square of the norm of `R` is below `1e-10` times
the norm of the loads; and `R` holds the out-of-balance forces if all prescribed values are zero. -/
theorem C113_analysis_partial (hs : s.Certifies) (hfit : LoopFits loop t z) (hz : ∀ n d, valOf z n d = 0)
    (q : List ((ℕ × ℕ) × ℝ)) (hq : NodalFits q t z) (fincmax itr : ℕ) (hf : fincmax ≠ 0) (u : List (Vec ℝ))
    (h : loadAnalysis s loop z t bc q fincmax itr = some (u, true)) :
    (∀ n d, ¬ IsFree t bc (n, d) → nodal u n d = (lastValue bc n d).or (nodal z n d)) ∧
    ∃ calls, loop u = some calls ∧ 0 < loadNorm q ∧
      passNorm true t bc (calls ++ [.nodal q]) (valOf u) ^ 2 < 1 / 10 ^ 10 * loadNorm q ∧
      ((∀ p ∈ bc, p.2 = 0) → outNorm t bc (calls ++ [.nodal q]) ^ 2 < 1 / 10 ^ 10 * loadNorm q) := by
  unfold loadAnalysis at h
  simp only [Option.bind_eq_bind, Option.bind_eq_some_iff, Prod.exists] at h
  obtain ⟨w, t₁, hset, h⟩ := h
  obtain ⟨a1, a2, a3⟩ := C113_steps hs hset hfit hz q hq itr _ w u true (setDirichlet_same hset) h
  have hval : ∀ n d, ¬ IsFree t bc (n, d) → nodal u n d = (lastValue bc n d).or (nodal z n d) := fun n d hn => by
    rw [a2 n d hn, ((C21_setDirichlet z w t t₁ bc hset).2.2 n d).2]
  obtain ⟨calls, b1, b2, b3⟩ := a3 rfl 1 (loadFactors_last hf)
  rw [scaleValues_one] at b2 b3
  have hpos : 0 < loadNorm q := lt_of_le_of_ne (Real.sqrt_nonneg _) (Ne.symm b2)
  rw [div_lt_iff₀ hpos] at b3
  refine ⟨hval, calls, b1, hpos, b3, fun hb => ?_⟩
  rw [passNorm_homogeneous fun n d hn => ?_] at b3
  · exact b3
  · show (nodal u n d).getD 0 = 0
    rw [hval n d hn]
    cases hv : lastValue bc n d with
    | none => exact hz n d
    | some y =>
      obtain ⟨p, hp, rfl⟩ := Option.map_eq_some_iff.1 hv
      simp [hb p (List.mem_reverse.1 (List.mem_of_find?_eq_some hp))]

/-! ### Small loads -/

/-- **C113**: if the square of the norm of the loads at the free dofs is below `1e-10` times the norm of the loads,
no pass solves anything: the field stays zero and every loop is left through `break`. -/
theorem C113_small (hfit : LoopFits loop t z) (hz : ∀ n d, valOf z n d = 0) (q : List ((ℕ × ℕ) × ℝ))
    (hq : NodalFits q t z) (hset : setDirichlet z t bc = some (w, t₁)) (hb : ∀ p ∈ bc, p.2 = 0)
    (calls : List (AsmCall ℝ)) (hl : loop w = some calls) (h0 : ∀ p ∈ freeDofs t bc, loadAt calls p.1 p.2 = 0)
    (hpos : 0 < loadNorm q) (hsmall : outNorm t bc [.nodal q] ^ 2 < 1 / 10 ^ 10 * loadNorm q) (fincmax itr : ℕ) :
    loadAnalysis s loop z t bc q fincmax (itr + 1) = some (w, true) ∧ (∀ n d, valOf w n d = 0) ∧
    outNorm t bc (calls ++ [.nodal q]) = outNorm t bc [.nodal q] := by
  have hw : ∀ n d, valOf w n d = 0 := by
    intro n d
    show (nodal w n d).getD 0 = 0
    rw [((C21_setDirichlet z w t t₁ bc hset).2.2 n d).2]
    cases hv : lastValue bc n d with
    | none => exact hz n d
    | some y =>
      obtain ⟨p, hp, rfl⟩ := Option.map_eq_some_iff.1 hv
      simp [hb p (List.mem_reverse.1 (List.mem_of_find?_eq_some hp))]
  have hout : ∀ c : ℝ, 0 ≤ c → outNorm t bc (calls ++ [.nodal (scaleValues c q)]) = outNorm t bc [.nodal q] * c := by
    intro c hc
    unfold outNorm
    rw [← dofNorm_scale _ _ hc]
    exact dofNorm_congr fun p hp => by rw [loadAt_append, h0 p hp, zero_add, loadAt_scale]
  refine ⟨?_, hw, by simpa [scaleValues_one] using hout 1 zero_le_one⟩
  have hstep : ∀ c : ℝ, 0 < c → c ≤ 1 → newtonLoop s true (loadTest (scaleValues c q)) (loaded loop (scaleValues c q))
      (renumbering t₁).1 (renumbering t₁).2 z (itr + 1) w = some (w, true) := by
    intro c hc hc1
    have h1 : newtonIter s true (loadTest (scaleValues c q)) (loaded loop (scaleValues c q)) (renumbering t₁).1
        (renumbering t₁).2 z w = some none := by
      refine newtonIter_left hset (setDirichlet_same hset) (loaded_eq_some.2 ⟨calls, hl, rfl⟩)
        (loaded_fits hfit hq c w _ (setDirichlet_same hset) (loaded_eq_some.2 ⟨calls, hl, rfl⟩)) hz ?_
      rw [passNorm_homogeneous fun n d _ => hw n d, hout c hc.le, loadTest_eq, loadNorm_scale hc.le]
      have hcl : 0 < c * loadNorm q := mul_pos hc hpos
      refine ⟨hcl.ne', ?_⟩
      simp only [true_iff]
      rw [div_lt_iff₀ hcl]
      have h2 : outNorm t bc [.nodal q] ^ 2 * (c * c) ≤ outNorm t bc [.nodal q] ^ 2 * c :=
        mul_le_mul_of_nonneg_left (by nlinarith) (sq_nonneg _)
      have h3 := mul_lt_mul_of_pos_right hsmall hc
      nlinarith
    simp only [newtonLoop, h1, Option.bind_eq_bind, Option.bind_some]
    rfl
  have hsteps : ∀ incs : List ℝ, (∀ c ∈ incs, 0 < c ∧ c ≤ 1) →
      loadSteps s loop q (renumbering t₁).1 (renumbering t₁).2 z (itr + 1) incs w = some (w, true) := by
    intro incs
    induction incs with
    | nil => intro _; rfl
    | cons c incs ih =>
      intro hc
      have h2 := hstep c (hc c (by simp)).1 (hc c (by simp)).2
      have h3 : loadSteps s loop q (renumbering t₁).1 (renumbering t₁).2 z (itr + 1) (c :: incs) w =
          (newtonLoop s true (loadTest (scaleValues c q)) (loaded loop (scaleValues c q)) (renumbering t₁).1
            (renumbering t₁).2 z (itr + 1) w).bind fun r => (loadSteps s loop q (renumbering t₁).1 (renumbering t₁).2 z
              (itr + 1) incs r.1).bind fun r' => some (r'.1, r.2 && r'.2) := rfl
      rw [h3, h2, Option.bind_some, ih fun c' h' => hc c' (by simp [h'])]
      rfl
  unfold loadAnalysis
  simp only [hset, Option.bind_eq_bind, Option.bind_some]
  refine hsteps _ fun c hc => ?_
  obtain ⟨i, hi, rfl⟩ := List.mem_map.1 hc
  rw [List.mem_range] at hi
  have : 0 < (fincmax : ℝ) := by exact_mod_cast (by omega : 0 < fincmax)
  exact ⟨by positivity, by rw [div_le_one this]; exact_mod_cast hi⟩

end

/-! ### A chain of springs -/

/-- Springs of unit stiffness between nodes on a line. -/
def springLoop (springs : List (ℕ × ℕ)) (u : List (Vec ℝ)) : Option (List (AsmCall ℝ)) :=
  some (springs.map fun e => .both ⟨2, 2, [1, -1, -1, 1]⟩
    ⟨[valOf u e.2 0 - valOf u e.1 0, valOf u e.1 0 - valOf u e.2 0]⟩ [[(0, 0)], [(0, 1)]] [e.1, e.2])

theorem springLoop_fits {springs : List (ℕ × ℕ)} {N : ℕ} (h : ∀ e ∈ springs, e.1 < N ∧ e.2 < N) :
    LoopFits (springLoop springs) (freeTable N 1) (zeroField N 1) := by
  intro u calls _ hl c hc
  obtain rfl := Option.some.inj hl
  obtain ⟨e, he, rfl⟩ := List.mem_map.1 hc
  obtain ⟨h1, h2⟩ := h e he
  refine ⟨?_, by simp, ?_, ?_⟩
  · simp [AsmCall.dofs, localDofs, dofNum, nodal, freeTable, zeroField, h1, h2, Vec.at?, Vec.size]
  · simp [localDofs, Mat.at?]
  · simp [localDofs, Vec.at?, Vec.size]

theorem valOf_zeroField (N k n d : ℕ) : valOf (zeroField N k) n d = 0 := zeroField_val N k n d

/-- **C113** is false: a spring with a load below `1e-10` is not deformed. -/
theorem C113_false (s : LinSolver) : ¬ C113_claim s := by
  intro hc
  have hset : setDirichlet (zeroField 2 1) (freeTable 2 1) [((0, 0), 0)] =
      some (zeroField 2 1, [[-1], [0]]) := rfl
  have hfree : freeDofs (freeTable 2 1) [((0, 0), (0 : ℝ))] = [(1, 0)] := rfl
  have hload : loadNorm [((1, 0), 1 / 10 ^ 11)] = 1 / 10 ^ 11 := by
    simp only [loadNorm, List.map_cons, List.map_nil, List.sum_cons, List.sum_nil, add_zero]
    exact Real.sqrt_sq (by positivity)
  have hq : NodalFits [((1, 0), (1 / 10 ^ 11 : ℝ))] (freeTable 2 1) (zeroField 2 1) := by
    intro p hp
    rw [List.mem_singleton.1 hp]
    simp [dofNum, nodal, freeTable, zeroField, Vec.at?, Vec.size]
  have hfit := springLoop_fits (springs := [(0, 1)]) (N := 2) (by simp)
  have hout : outNorm (freeTable 2 1) [((0, 0), (0 : ℝ))] [.nodal [((1, 0), 1 / 10 ^ 11)]] = 1 / 10 ^ 11 := by
    unfold outNorm dofNorm
    rw [hfree]
    simp only [List.map_cons, List.map_nil, List.sum_cons, List.sum_nil, add_zero, loadAt_nodal]
    simp only [and_self, if_true]
    exact Real.sqrt_sq (by positivity)
  obtain ⟨h1, h2, h3⟩ := C113_small (s := s) hfit (valOf_zeroField 2 1) _ hq hset (by simp) _ rfl (by
    rw [hfree]
    simp [loadAt, AsmCall.dofs, localDofs, AsmCall.rhs, Vec.at?, Vec.size, valOf_zeroField]) (by rw [hload]; positivity)
    (by rw [hload, hout]; norm_num) 1 0
  obtain ⟨-, calls, h4, h5⟩ := hc _ _ _ _ _ 1 1 _ hfit hq (valOf_zeroField 2 1) one_ne_zero h1
  obtain rfl := Option.some.inj h4
  rw [h3, hout, hload] at h5
  norm_num at h5

/-- The calls of the springs at a field. -/
def springCalls (springs : List (ℕ × ℕ)) (u : List (Vec ℝ)) : List (AsmCall ℝ) :=
  springs.map fun e => .both ⟨2, 2, [1, -1, -1, 1]⟩
    ⟨[valOf u e.2 0 - valOf u e.1 0, valOf u e.1 0 - valOf u e.2 0]⟩ [[(0, 0)], [(0, 1)]] [e.1, e.2]

/-- Three nodes, the last one displaced. -/
def pulled : List (Vec ℝ) := [⟨[0]⟩, ⟨[0]⟩, ⟨[1]⟩]

theorem pulled_val (n d : ℕ) : valOf pulled n d = if n = 2 ∧ d = 0 then 1 else 0 := by
  rcases n with _ | _ | _ | n <;> rcases d with _ | d <;> simp [valOf, nodal, Vec.at?, Vec.size, pulled]
  all_goals intros; omega

/-- **C113** is false also without small loads: of three nodes in a row the first is held and the last displaced by
one.  The first pass already finds `R = 0` and leaves, though the forces at the node in the middle differ by one. -/
theorem C113_prescribed_false (s : LinSolver) :
    loadAnalysis s (springLoop [(0, 1), (1, 2)]) (zeroField 3 1) (freeTable 3 1) [((0, 0), 0), ((2, 0), 1)]
      [((1, 0), -2)] 1 1 = some (pulled, true) ∧
    springLoop [(0, 1), (1, 2)] pulled = some (springCalls [(0, 1), (1, 2)] pulled) ∧
    outNorm (freeTable 3 1) [((0, 0), 0), ((2, 0), 1)] (springCalls [(0, 1), (1, 2)] pulled ++ [.nodal [((1, 0), -2)]])
      = 1 ∧ loadNorm [((1, 0), -2)] = 2 := by
  have hset : setDirichlet (zeroField 3 1) (freeTable 3 1) [((0, 0), 0), ((2, 0), 1)] =
      some (pulled, [[-1], [0], [-1]]) := rfl
  have hfree : freeDofs (freeTable 3 1) [((0, 0), (0 : ℝ)), ((2, 0), 1)] = [(1, 0)] := rfl
  have f0 : ¬ IsFree (freeTable 3 1) [((0, 0), (0 : ℝ)), ((2, 0), 1)] (0, 0) := by simp [IsFree]
  have f2 : ¬ IsFree (freeTable 3 1) [((0, 0), (0 : ℝ)), ((2, 0), 1)] (2, 0) := by simp [IsFree]
  have f1 : IsFree (freeTable 3 1) [((0, 0), (0 : ℝ)), ((2, 0), 1)] (1, 0) := by decide
  have hload : loadNorm [((1, 0), -2)] = 2 := by
    simp only [loadNorm, List.map_cons, List.map_nil, List.sum_cons, List.sum_nil, add_zero]
    rw [show ((-2 : ℝ)) ^ 2 = 2 ^ 2 by norm_num]
    exact Real.sqrt_sq (by norm_num)
  have hq : NodalFits [((1, 0), (-2 : ℝ))] (freeTable 3 1) (zeroField 3 1) := by
    intro p hp
    rw [List.mem_singleton.1 hp]
    simp [dofNum, nodal, freeTable, zeroField, Vec.at?, Vec.size]
  have hfit := springLoop_fits (springs := [(0, 1), (1, 2)]) (N := 3) (by simp)
  refine ⟨?_, rfl, ?_, hload⟩
  · have h1 : newtonIter s true (loadTest [((1, 0), -2)]) (loaded (springLoop [(0, 1), (1, 2)]) [((1, 0), -2)])
        (renumbering [[-1], [0], [-1]]).1 (renumbering [[-1], [0], [-1]]).2 (zeroField 3 1) pulled = some none := by
      have hl : loaded (springLoop [(0, 1), (1, 2)]) [((1, 0), (-2 : ℝ))] pulled =
        some (springCalls [(0, 1), (1, 2)] pulled ++ [.nodal [((1, 0), -2)]]) := rfl
      refine newtonIter_left hset (setDirichlet_same hset) hl ?_ (valOf_zeroField 3 1) ?_
      · have := loaded_fits hfit hq 1
        rw [scaleValues_one] at this
        exact this _ _ (setDirichlet_same hset) hl
      · rw [loadTest_eq, hload]
        refine ⟨by norm_num, ?_⟩
        have : passNorm true (freeTable 3 1) [((0, 0), 0), ((2, 0), 1)]
            (springCalls [(0, 1), (1, 2)] pulled ++ [.nodal [((1, 0), -2)]]) (valOf pulled) = 0 := by
          unfold passNorm dofNorm
          rw [hfree]
          simp [residual, AsmCall.dofs, AsmCall.mat, AsmCall.rhs, localDofs, passBase, held, pulled_val, f0, f1, f2,
            Mat.at?, Vec.at?, Vec.size, springCalls]
          norm_num
        rw [this]
        norm_num
    have h2 : newtonLoop s true (loadTest [((1, 0), -2)]) (loaded (springLoop [(0, 1), (1, 2)]) [((1, 0), -2)])
        (renumbering [[-1], [0], [-1]]).1 (renumbering [[-1], [0], [-1]]).2 (zeroField 3 1) 1 pulled =
        some (pulled, true) := by
      simp only [newtonLoop, h1, Option.bind_eq_bind, Option.bind_some]
      rfl
    have h3 : loadFactors 1 = [1] := by simp [loadFactors]
    unfold loadAnalysis
    simp only [hset, Option.bind_eq_bind, Option.bind_some, h3]
    have h4 : loadSteps s (springLoop [(0, 1), (1, 2)]) [((1, 0), -2)] (renumbering [[-1], [0], [-1]]).1
        (renumbering [[-1], [0], [-1]]).2 (zeroField 3 1) 1 [1] pulled =
        (newtonLoop s true (loadTest (scaleValues 1 [((1, 0), -2)]))
          (loaded (springLoop [(0, 1), (1, 2)]) (scaleValues 1 [((1, 0), -2)])) (renumbering [[-1], [0], [-1]]).1
          (renumbering [[-1], [0], [-1]]).2 (zeroField 3 1) 1 pulled).bind fun r => some (r.1, r.2 && true) := rfl
    rw [h4, scaleValues_one, h2]
    rfl
  · unfold outNorm dofNorm
    rw [hfree]
    simp [loadAt, AsmCall.dofs, AsmCall.rhs, localDofs, pulled_val, Vec.at?, Vec.size, springCalls]
    norm_num

end Pansfem
