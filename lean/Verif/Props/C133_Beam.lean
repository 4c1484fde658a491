/-
C133: the beam program.
-/
import Verif.Lemmas.Beam
import Verif.Lemmas.StaticExact
import Verif.Props.C113_Solid

namespace Pansfem

open Matrix

section
variable {x : List (Vec ℝ)} {elements : List (List ℕ)} {bc q : List ((ℕ × ℕ) × ℝ)} {E V a b : ℝ}

theorem nodal_fits' {N k : ℕ} {q : List ((ℕ × ℕ) × ℝ)} (hq : ∀ p ∈ q, p.1.1 < N ∧ p.1.2 < k) :
    (AsmCall.nodal q).Fits (freeTable N k) (zeroField N k) := by
  refine ⟨?_, trivial⟩
  intro p hp
  simp only [AsmCall.dofs, List.mem_map] at hp
  obtain ⟨r, hr, rfl⟩ := hp
  have hr' : r.1 ∈ q := by
    have := List.mem_zipIdx hr
    rw [this.2.2]
    exact List.getElem_mem _
  obtain ⟨b1, b2⟩ := hq _ hr'
  exact ⟨by simp only [dofNum_freeTable b1 b2]; rfl, by simp only [nodal_zeroField b1 b2]; rfl⟩

theorem beam_coords {e : List ℕ} (hB : Beams x elements) (he : e ∈ elements) :
    ∃ m n X, e = [m, n] ∧ gather x [m, n] 2 3 = some X ∧ 0 < span x m n 0 := by
  obtain ⟨m, n, rfl, h1, h2, h3⟩ := hB e he
  obtain ⟨X, hX⟩ := Option.isSome_iff_exists.1 (gather_isSome (x := x) (e := [m, n]) (n := 2) (d := 3) rfl (by
    intro k hk j
    simp only [List.mem_cons, List.not_mem_nil, or_false] at hk
    rcases hk with rfl | rfl
    · exact h1 j j.2
    · exact h2 j j.2))
  exact ⟨m, n, X, rfl, hX, sub_pos.2 h3⟩

/-- The calls of the program. -/
theorem beamCalls_spec (hB : Beams x elements) (ha : a ≠ 0) (hb : b ≠ 0) (hV : 1 + V ≠ 0)
    (hq : ∀ p ∈ q, p.1.1 < x.length ∧ p.1.2 < 6) :
    ∃ calls, beamCalls x elements q E V a b = some calls ∧
      (∀ c ∈ calls, c.Fits (freeTable x.length 6) (zeroField x.length 6)) ∧ SymmetricCalls calls ∧
      (∀ v u, energy calls v u = beamWork x elements E V a b v u) ∧
      (∀ v, (calls.map fun c => callLoad c v).sum = (q.map fun p => p.2 * v p.1.1 p.1.2).sum) ∧
      (∀ c ∈ calls, (∀ v, callEnergy c v v = 0) ∨ ∃ e ∈ elements, ∀ v, callEnergy c v v = beamForm x E V a b v v e) ∧
      (∀ e ∈ elements, ∃ c ∈ calls, ∀ v, callEnergy c v v = beamForm x E V a b v v e) := by
  have key : ∀ e ∈ elements, ∃ c, (do
      let (Ke, nte) ← elemM 6 (beamCore E V a b) e [0, 1, 2, 3, 4, 5] x
      return AsmCall.matrix Ke nte e : Option (AsmCall ℝ)) = some c ∧
      ElemCall (beamCore E V a b) [0, 1, 2, 3, 4, 5] x e c ∧ (∀ a, c.rhs a = 0) ∧
      ∀ v u : ℕ → ℕ → ℝ, callEnergy c v u = beamForm x E V a b v u e := by
    intro e he
    obtain ⟨m, n, X, rfl, hX, hp⟩ := beam_coords hB he
    obtain ⟨A, hA, h2⟩ := beamCore_spec (E := E) hX hp.ne' ha hb hV
    refine ⟨_, ?_, ⟨X, _, hX, hA, rfl⟩, fun a => rfl, fun v u => ?_⟩
    · rw [(elemM_eq_some (k := 6) (dl := [0, 1, 2, 3, 4, 5])).2 ⟨rfl, X, _, hX, hA, rfl, rfl⟩]
      rfl
    · rw [matrix_energy A rfl rfl, h2]
  haveI : Nonempty (AsmCall ℝ) := ⟨.nodal []⟩
  choose! C hC using key
  have hks : matrixCalls 6 (beamCore E V a b) [0, 1, 2, 3, 4, 5] x elements = some (elements.map C) :=
    mapM_some fun e he => (hC e he).1
  refine ⟨elements.map C ++ [.nodal q], by
    simp only [beamCalls, hks, Option.bind_eq_bind, Option.bind_some, Option.pure_def], fun c hc => ?_, fun c hc => ?_,
    fun v u => ?_, fun v => ?_, fun c hc => ?_, fun e he => ?_⟩
  · rcases List.mem_append.1 hc with hc | hc
    · obtain ⟨e, he, rfl⟩ := List.mem_map.1 hc
      exact elem_fits rfl (by decide) (by norm_num) (hC e he).2.1
    · rw [List.mem_singleton.1 hc]
      exact nodal_fits' hq
  · rcases List.mem_append.1 hc with hc | hc
    · obtain ⟨e, he, rfl⟩ := List.mem_map.1 hc
      have hs : ∀ X A, beamCore E V a b X = some A → Aᵀ = A := fun X A hA => by
        unfold beamCore at hA
        exact C32_beam hA
      exact elem_sym (k := 6) (dl := [0, 1, 2, 3, 4, 5]) rfl (hC e he).2.1 hs
    · rw [List.mem_singleton.1 hc]
      intros; rfl
  · rw [energy_eq, List.map_append, List.sum_append, List.map_map, List.map_singleton, List.sum_singleton, nodal_energy,
      add_zero]
    exact congrArg List.sum (List.map_congr_left fun e he => (hC e he).2.2.2 v u)
  · rw [List.map_append, List.sum_append, List.map_map, List.map_singleton, List.sum_singleton, nodal_work,
      List.sum_eq_zero, zero_add]
    intro r hr
    obtain ⟨e, he, rfl⟩ := List.mem_map.1 hr
    show callLoad (C e) v = 0
    unfold callLoad
    refine List.sum_eq_zero fun r hr => ?_
    obtain ⟨p, -, rfl⟩ := List.mem_map.1 hr
    rw [(hC e he).2.2.1, mul_zero]
  · rcases List.mem_append.1 hc with hc | hc
    · obtain ⟨e, he, rfl⟩ := List.mem_map.1 hc
      exact .inr ⟨e, he, fun v => (hC e he).2.2.2 v v⟩
    · rw [List.mem_singleton.1 hc]
      exact .inl fun v => nodal_energy q v v
  · exact ⟨C e, by simp [List.mem_map]; exact .inl ⟨e, he, rfl⟩, fun v => (hC e he).2.2.2 v v⟩

/-- **C133**: the equations.  On beams that extend along the first axis the matrices of all elements are defined, and the
residual at a dof is the virtual work of a unit displacement there: axial forces, shear forces at the middle of the
beams, torques and bending moments, minus the loads of the dof. -/
theorem C133_equations (hB : Beams x elements) (ha : a ≠ 0) (hb : b ≠ 0) (hV : 1 + V ≠ 0)
    (hq : ∀ p ∈ q, p.1.1 < x.length ∧ p.1.2 < 6) :
    ∃ calls, beamCalls x elements q E V a b = some calls ∧
      (∀ c ∈ calls, c.Fits (freeTable x.length 6) (zeroField x.length 6)) ∧
      ∀ (v : ℕ → ℕ → ℝ) (n d : ℕ), residual calls v n d =
        beamWork x elements E V a b (unitField n d) v - (q.map fun p => if p.1 = (n, d) then p.2 else 0).sum := by
  obtain ⟨calls, h1, h2, -, h4, h5, -⟩ := beamCalls_spec (E := E) hB ha hb hV hq
  refine ⟨calls, h1, h2, fun v n d => ?_⟩
  rw [residual_eq, h4, h5]
  congr 2
  refine List.map_congr_left fun p _ => ?_
  unfold unitField
  by_cases h : p.1 = (n, d)
  · simp [h]
  · rw [if_neg h, if_neg fun hc => h (Prod.ext hc.1 hc.2), mul_zero]

/-- **C133**: a beam upright to the first axis makes the program divide by zero. -/
theorem C133_upright {e : List ℕ} {m n : ℕ} (he : e ∈ elements) (hmn : e = [m, n]) (hx : coord x m 0 = coord x n 0) :
    beamStatic x elements bc q E V a b = none := by
  have : beamCalls x elements q E V a b = none := by
    cases h : matrixCalls 6 (beamCore E V a b) [0, 1, 2, 3, 4, 5] x elements with
    | none => simp [beamCalls, h]
    | some ks =>
      exfalso
      obtain ⟨c, -, X, A, hX, hA, -⟩ := (matrixCalls_some h).2 e he
      subst hmn
      rw [beamCore_upright] at hA
      · cases hA
      · have e0 := gather_entry hX 0 0
        have e1 := gather_entry hX 1 0
        simp at e0 e1
        simp only [coord, e0, e1, Option.getD_some] at hx
        exact hx.symm
  simp [beamStatic, this]

/-- **C133**: a run.  The result has the given displacements and rotations, and the solver reported convergence exactly if
the norm of the residuals at the free dofs is below `1e-10` times that of the given values alone. -/
theorem C133_run (hB : Beams x elements) (ha : a ≠ 0) (hb : b ≠ 0) (hV : 1 + V ≠ 0)
    (hq : ∀ p ∈ q, p.1.1 < x.length ∧ p.1.2 < 6) {u : List (Vec ℝ)} {conv : Bool}
    (h : beamStatic x elements bc q E V a b = some (u, conv)) :
    (∀ m d v, lastValue bc m d = some v → nodal u m d = some v) ∧
    (conv = true ↔ dofNorm (freeDofs (freeTable x.length 6) bc) (fun n d =>
        beamWork x elements E V a b (unitField n d) (valOf u) - (q.map fun p => if p.1 = (n, d) then p.2 else 0).sum) <
      1 / 10 ^ 10 * dofNorm (freeDofs (freeTable x.length 6) bc) (fun n d =>
        beamWork x elements E V a b (unitField n d) (given (zeroField x.length 6) (freeTable x.length 6) bc) -
          (q.map fun p => if p.1 = (n, d) then p.2 else 0).sum)) := by
  obtain ⟨calls, h1, h2, h3⟩ := C133_equations (E := E) hB ha hb hV hq
  simp only [beamStatic, h1, Option.bind_eq_bind, Option.bind_some] at h
  obtain ⟨a1, -, a3⟩ := C108_result useScalingCG useScalingCG_certifies _ u _ bc calls conv h2 h
  have e : ∀ w : ℕ → ℕ → ℝ, residual calls w = fun n d =>
      beamWork x elements E V a b (unitField n d) w - (q.map fun p => if p.1 = (n, d) then p.2 else 0).sum :=
    fun w => funext fun n => funext fun d => h3 w n d
  rw [e, e] at a3
  exact ⟨a1, a3⟩

/-! ### Stability -/

theorem beamShear_pos (hE : 0 < E) (hV : -1 < V) : 0 < beamShear E V := by
  have : 0 < 1 + V := by linarith
  unfold beamShear
  positivity

theorem beamForm_nonneg (hB : Beams x elements) (hE : 0 < E) (hV : -1 < V) (ha : 0 < a) (hb : 0 < b) (v : ℕ → ℕ → ℝ) :
    ∀ e ∈ elements, 0 ≤ beamForm x E V a b v v e := by
  intro e he
  obtain ⟨m, n, X, rfl, -, hp⟩ := beam_coords hB he
  have := beamShear_pos hE hV
  have s0 := mul_self_nonneg (slip x m n v 0)
  have s1 := mul_self_nonneg (slip x m n v 1)
  have s2 := mul_self_nonneg (slip x m n v 2)
  have t0 := mul_self_nonneg (bend x m n v 0)
  have t1 := mul_self_nonneg (bend x m n v 1)
  have t2 := mul_self_nonneg (bend x m n v 2)
  simp only [beamForm]
  positivity

/-- The rotation of a node. -/
def nodeSpin (v : ℕ → ℕ → ℝ) (m : ℕ) : Fin 3 → ℝ := ![v m 3, v m 4, v m 5]

/-- The displacement of the origin, if the rigid motion of a node is extended to it. -/
noncomputable def nodeShift (x : List (Vec ℝ)) (v : ℕ → ℕ → ℝ) (m : ℕ) : Fin 3 → ℝ :=
  ![v m 0 - (v m 4 * coord x m 2 - v m 5 * coord x m 1), v m 1 - (v m 5 * coord x m 0 - v m 3 * coord x m 2),
    v m 2 - (v m 3 * coord x m 1 - v m 4 * coord x m 0)]

theorem node_rigid (x : List (Vec ℝ)) (v : ℕ → ℕ → ℝ) (m : ℕ) :
    ∀ j < 6, v m j = rigid6At x (nodeShift x v m) (nodeSpin v m) m j := by
  intro j hj
  interval_cases j <;> simp [rigid6At, nodeShift, nodeSpin]

/-- A beam without energy moves as a rigid body. -/
theorem beam_zero {m n : ℕ} (hp : 0 < span x m n 0) (hE : 0 < E) (hV : -1 < V) (ha : 0 < a) (hb : 0 < b)
    {v : ℕ → ℕ → ℝ} (h : beamForm x E V a b v v [m, n] = 0) :
    nodeShift x v n = nodeShift x v m ∧ nodeSpin v n = nodeSpin v m := by
  have hG := beamShear_pos hE hV
  simp only [beamForm] at h
  have h' := (mul_eq_zero.1 h).resolve_left hp.ne'
  have s0 : 0 ≤ E * (a * b) * (slip x m n v 0 * slip x m n v 0) := mul_nonneg (by positivity) (mul_self_nonneg _)
  have s1 : 0 ≤ beamShear E V * (a * b) * (slip x m n v 1 * slip x m n v 1) := mul_nonneg (by positivity) (mul_self_nonneg _)
  have s2 : 0 ≤ beamShear E V * (a * b) * (slip x m n v 2 * slip x m n v 2) := mul_nonneg (by positivity) (mul_self_nonneg _)
  have t0 : 0 ≤ beamShear E V * (a * b * (a ^ 2 + b ^ 2) / 12) * (bend x m n v 0 * bend x m n v 0) :=
    mul_nonneg (by positivity) (mul_self_nonneg _)
  have t1 : 0 ≤ E * (a * b ^ 3 / 12) * (bend x m n v 1 * bend x m n v 1) := mul_nonneg (by positivity) (mul_self_nonneg _)
  have t2 : 0 ≤ E * (a ^ 3 * b / 12) * (bend x m n v 2 * bend x m n v 2) := mul_nonneg (by positivity) (mul_self_nonneg _)
  rw [mul_add (beamShear E V * (a * b))] at h'
  have z : ∀ {c r : ℝ}, c ≠ 0 → c * (r * r) = 0 → r = 0 := fun hc h => by
    have := (mul_eq_zero.1 h).resolve_left hc
    simpa using this
  have q0 : bend x m n v 0 = 0 := z (c := beamShear E V * (a * b * (a ^ 2 + b ^ 2) / 12)) (by positivity) (by linarith)
  have q1 : bend x m n v 1 = 0 := z (c := E * (a * b ^ 3 / 12)) (by positivity) (by linarith)
  have q2 : bend x m n v 2 = 0 := z (c := E * (a ^ 3 * b / 12)) (by positivity) (by linarith)
  have p0 : slip x m n v 0 = 0 := z (c := E * (a * b)) (by positivity) (by linarith)
  have p1 : slip x m n v 1 = 0 := z (c := beamShear E V * (a * b)) (by positivity) (by linarith)
  have p2 : slip x m n v 2 = 0 := z (c := beamShear E V * (a * b)) (by positivity) (by linarith)
  simp only [bend, div_eq_zero_iff, hp.ne', or_false, sub_eq_zero, Nat.reduceAdd] at q0 q1 q2
  simp only [slip, endMean, Matrix.cons_val_zero, Matrix.cons_val_one, Matrix.cons_val, div_eq_zero_iff, hp.ne', or_false,
    q0, q1, q2] at p0 p1 p2
  simp only [span] at p0 p1 p2
  constructor
  · funext k
    fin_cases k <;> simp [nodeShift, q0, q1, q2] <;> linarith
  · simp [nodeSpin, q0, q1, q2]

theorem beams_zero (hB : Beams x elements) (hE : 0 < E) (hV : -1 < V) (ha : 0 < a) (hb : 0 < b)
    {held : List (ℕ × ℕ)} (hr : Restrained x elements held) {v : ℕ → ℕ → ℝ}
    (hv : ∀ m j, ¬ (m < x.length ∧ j < 6 ∧ (m, j) ∉ held) → v m j = 0)
    (hz : ∀ e ∈ elements, beamForm x E V a b v v e = 0) (m j : ℕ) : v m j = 0 := by
  by_cases hmj : m < x.length ∧ j < 6
  · have hj : ∀ n, Joined elements m n → nodeShift x v n = nodeShift x v m ∧ nodeSpin v n = nodeSpin v m := by
      intro n hn
      induction hn with
      | refl => exact ⟨rfl, rfl⟩
      | tail _ hs ih =>
        obtain ⟨e, he, h1, h2⟩ := hs
        have h0 := hz e he
        obtain ⟨k, l, X, rfl, -, hp⟩ := beam_coords hB he
        obtain ⟨f1, f2⟩ := beam_zero hp hE hV ha hb h0
        rw [← ih.1, ← ih.2]
        simp only [List.mem_cons, List.not_mem_nil, or_false] at h1 h2
        rcases h1 with rfl | rfl <;> rcases h2 with rfl | rfl <;> simp [f1, f2]
    have := hr m hmj.1 (nodeShift x v m) (nodeSpin v m) fun p hp hn => by
      obtain ⟨f1, f2⟩ := hj p.1 hn
      by_cases h6 : p.2 < 6
      · rw [← f1, ← f2, ← node_rigid x v p.1 p.2 h6]
        exact hv _ _ fun hc => hc.2.2 hp
      · obtain ⟨k, hk⟩ : ∃ k, p.2 = k + 6 := ⟨p.2 - 6, by omega⟩
        rw [hk]
        rfl
    rw [node_rigid x v m j hmj.2, this.1, this.2]
    have := hmj.2
    interval_cases j <;> simp [rigid6At]
  · exact hv m j fun hc => hmj ⟨hc.1, hc.2.1⟩

/-- **C133**: if the supports of every connected part allow no rigid motion, the virtual work of every displacement that
vanishes at the supports and is not zero is positive. -/
theorem C133_stable (hB : Beams x elements) (hE : 0 < E) (hV : -1 < V) (ha : 0 < a) (hb : 0 < b)
    {held : List (ℕ × ℕ)} (hr : Restrained x elements held) {v : ℕ → ℕ → ℝ}
    (hv : ∀ m j, ¬ (m < x.length ∧ j < 6 ∧ (m, j) ∉ held) → v m j = 0) (hne : ∃ m j, v m j ≠ 0) :
    0 < beamWork x elements E V a b v v := by
  have hn := beamForm_nonneg hB hE hV ha hb v
  refine lt_of_le_of_ne (List.sum_nonneg fun r hr => by
    obtain ⟨e, he, rfl⟩ := List.mem_map.1 hr
    exact hn e he) fun h0 => ?_
  obtain ⟨m, j, hne⟩ := hne
  refine hne (beams_zero hB hE hV ha hb hr hv (fun e he => le_antisymm ?_ (hn e he)) m j)
  have h0 : 0 = (elements.map (beamForm x E V a b v v)).sum := h0
  rw [h0]
  refine List.single_le_sum (fun r hr => ?_) _ (List.mem_map.2 ⟨e, he, rfl⟩)
  obtain ⟨e', he', rfl⟩ := List.mem_map.1 hr
  exact hn e' he'

/-- **C133**: then the equations have exactly one solution, whatever the given values and the loads. -/
theorem C133_unique (hB : Beams x elements) (hE : 0 < E) (hV : -1 < V) (ha : 0 < a) (hb : 0 < b)
    (hr : Restrained x elements (bc.map Prod.fst)) (hq : ∀ p ∈ q, p.1.1 < x.length ∧ p.1.2 < 6) :
    ∃ calls, beamCalls x elements q E V a b = some calls ∧ ∀ u : ℕ → ℕ → ℝ,
      ∃! v : ℕ → ℕ → ℝ, (∀ p ∈ freeDofs (freeTable x.length 6) bc, residual calls v p.1 p.2 = 0) ∧
        ∀ n d, ¬ IsFree (freeTable x.length 6) bc (n, d) → v n d = u n d := by
  obtain ⟨calls, h1, h2, -, h4, -⟩ := beamCalls_spec (E := E) hB ha.ne' hb.ne' (by linarith : 1 + V ≠ 0) hq
  refine ⟨calls, h1, fun u => static_exact (fun c hc p hp => ((h2 c hc).1 p hp).1) (fun v hv hne => ?_) u⟩
  rw [h4]
  exact C133_stable hB hE hV ha hb hr (fun m j hmj => hv m j fun hc => hmj (free_table.1 hc)) hne

/-- **C133**: and the program computes it, unless no free dof is loaded. -/
theorem C133_solves (hB : Beams x elements) (hE : 0 < E) (hV : -1 < V) (ha : 0 < a) (hb : 0 < b)
    (hr : Restrained x elements (bc.map Prod.fst)) (hq : ∀ p ∈ q, p.1.1 < x.length ∧ p.1.2 < 6)
    (hbc : ∀ p ∈ bc, p.1.1 < x.length ∧ p.1.2 < 6) (hN : x.length * 6 ≤ 100000)
    (hload : ∃ p ∈ freeDofs (freeTable x.length 6) bc,
      beamWork x elements E V a b (unitField p.1 p.2) (given (zeroField x.length 6) (freeTable x.length 6) bc) ≠
        (q.map fun r => if r.1 = (p.1, p.2) then r.2 else 0).sum) :
    ∃ u, beamStatic x elements bc q E V a b = some (u, true) := by
  have hV' : 1 + V ≠ 0 := by linarith
  obtain ⟨calls, h1, h2, h3, h4, h5, h6, h7⟩ := beamCalls_spec (E := E) hB ha.ne' hb.ne' hV' hq
  obtain ⟨calls', h1', -, h3'⟩ := C133_equations (E := E) hB ha.ne' hb.ne' hV' hq
  obtain rfl := Option.some.inj (h1'.symm.trans h1)
  obtain ⟨u, hu⟩ := program_succeeds useScalingCG_finds h2 hbc h3 (fun c hc v => by
      rcases h6 c hc with h | ⟨e, he, h⟩
      · exact (h v).ge
      · rw [h]
        exact beamForm_nonneg hB hE hV ha hb v e he)
    (fun v hv hall => beams_zero hB hE hV ha hb hr hv fun e he => by
      obtain ⟨c, hc, h⟩ := h7 e he
      rw [← h]
      exact hall c hc)
    (by
      obtain ⟨p, hp, hne⟩ := hload
      exact ⟨p, hp, by rw [h3']; exact sub_ne_zero.2 hne⟩) hN
  exact ⟨u, by simp only [beamStatic, h1, Option.bind_eq_bind, Option.bind_some]; exact hu⟩

end

end Pansfem
