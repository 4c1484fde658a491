/-
C133: the beam program on a cantilever.
-/
import Verif.Props.C133_Beam
import Verif.Lemmas.LoadedAnalysis

namespace Pansfem

open Matrix

section
variable {E V a b h : ℝ} {N : ℕ} {F : ℕ → ℝ}

theorem rod_nodal {i : ℕ} (hi : i ≤ N) (j : ℕ) : nodal (rodNodes N h) i j = [(i : ℝ) * h, 0, 0][j]? := by
  have : i < N + 1 := by omega
  simp [nodal, rodNodes, this, Vec.at?, Vec.size]

theorem rod_length : (rodNodes N h).length = N + 1 := by simp [rodNodes]

theorem rod_coord {i : ℕ} (hi : i ≤ N) : coord (rodNodes N h) i 0 = i * h ∧ coord (rodNodes N h) i 1 = 0 ∧
    coord (rodNodes N h) i 2 = 0 := by
  simp [coord, rod_nodal hi]

theorem rod_span {i : ℕ} (hi : i < N) : span (rodNodes N h) i (i + 1) 0 = h ∧ span (rodNodes N h) i (i + 1) 1 = 0 ∧
    span (rodNodes N h) i (i + 1) 2 = 0 := by
  obtain ⟨a0, a1, a2⟩ := rod_coord (h := h) (N := N) (i := i) (by omega)
  obtain ⟨b0, b1, b2⟩ := rod_coord (h := h) (N := N) (i := i + 1) (by omega)
  simp only [span, a0, a1, a2, b0, b1, b2]
  push_cast
  exact ⟨by ring, by ring, by ring⟩

theorem rod_beams (hh : 0 < h) : Beams (rodNodes N h) (rodElements N) := by
  intro e he
  obtain ⟨i, hi, rfl⟩ := List.mem_map.1 he
  have hi := List.mem_range.1 hi
  refine ⟨i, i + 1, rfl, fun j hj => ?_, fun j hj => ?_, ?_⟩
  · rw [rod_nodal (by omega)]
    interval_cases j <;> rfl
  · rw [rod_nodal (by omega)]
    interval_cases j <;> rfl
  · have := (rod_span (h := h) hi).1
    unfold span at this
    linarith

theorem rod_joined {m : ℕ} (hm : m ≤ N) : Joined (rodElements N) m 0 := by
  induction m with
  | zero => exact .refl
  | succ m ih =>
    refine .head ⟨[m, m + 1], List.mem_map.2 ⟨m, List.mem_range.2 (by omega), rfl⟩, ?_, ?_⟩ (ih (by omega)) <;> simp

theorem rod_restrained : Restrained (rodNodes N h) (rodElements N) (clamp.map Prod.fst) := by
  intro m hm c w hp
  have hj := rod_joined (N := N) (m := m) (by rw [rod_length] at hm; omega)
  have : ∀ j < 6, rigid6At (rodNodes N h) c w 0 j = 0 := fun j hj' => hp (0, j) (by
    simp [clamp]
    exact hj') hj
  obtain ⟨q0, q1, q2⟩ := rod_coord (h := h) (N := N) (i := 0) (by omega)
  have r3 := this 3 (by norm_num)
  have r4 := this 4 (by norm_num)
  have r5 := this 5 (by norm_num)
  have r0 := this 0 (by norm_num)
  have r1 := this 1 (by norm_num)
  have r2 := this 2 (by norm_num)
  simp only [rigid6At] at r0 r1 r2 r3 r4 r5
  simp [r3, r4, r5] at r0 r1 r2
  constructor
  · funext k
    fin_cases k <;> assumption
  · funext k
    fin_cases k <;> assumption

/-- The displacements and rotations of the nodes of the cantilever. -/
noncomputable def cantilever (E V a b h : ℝ) (N : ℕ) (F : ℕ → ℝ) (m j : ℕ) : ℝ :=
  if m ≤ N then cantileverAt E V a b (N * h) h F (m * h) j else 0

theorem cantilever_strain (hh : 0 < h) (hE : 0 < E) (hV : -1 < V) (ha : 0 < a) (hb : 0 < b) {i : ℕ} (hi : i < N) :
    (slip (rodNodes N h) i (i + 1) (cantilever E V a b h N F) 0 = F 0 / (E * (a * b)) ∧
     slip (rodNodes N h) i (i + 1) (cantilever E V a b h N F) 1 = F 1 / (beamShear E V * (a * b)) ∧
     slip (rodNodes N h) i (i + 1) (cantilever E V a b h N F) 2 = F 2 / (beamShear E V * (a * b))) ∧
    bend (rodNodes N h) i (i + 1) (cantilever E V a b h N F) 0 = F 3 / (beamShear E V * (a * b * (a ^ 2 + b ^ 2) / 12)) ∧
    bend (rodNodes N h) i (i + 1) (cantilever E V a b h N F) 1 =
      (F 4 - F 2 * (N * h - (i + 1 / 2) * h)) / (E * (a * b ^ 3 / 12)) ∧
    bend (rodNodes N h) i (i + 1) (cantilever E V a b h N F) 2 =
      (F 5 + F 1 * (N * h - (i + 1 / 2) * h)) / (E * (a ^ 3 * b / 12)) := by
  obtain ⟨s0, s1, s2⟩ := rod_span (h := h) hi
  have hG := beamShear_pos hE hV
  have i0 : i ≤ N := by omega
  have i1 : i + 1 ≤ N := by omega
  simp only [slip, bend, endMean, s0, s1, s2, cantilever, if_pos i0, if_pos i1, cantileverAt, deflection, inclination,
    Matrix.cons_val_zero, Matrix.cons_val_one, Matrix.cons_val, Nat.reduceAdd]
  push_cast
  generalize beamShear E V = G at hG
  refine ⟨⟨?_, ?_, ?_⟩, ?_, ?_, ?_⟩ <;> field_simp <;> ring

/-- The virtual work of the clamp, of the loads and of the part of the beam that is cut off. -/
theorem cantilever_work (hh : 0 < h) (hE : 0 < E) (hV : -1 < V) (ha : 0 < a) (hb : 0 < b) (v : ℕ → ℕ → ℝ) :
    beamWork (rodNodes N h) (rodElements N) E V a b v (cantilever E V a b h N F) =
      (F 0 * v N 0 + F 1 * v N 1 + F 2 * v N 2 + F 3 * v N 3 + F 4 * v N 4 + F 5 * v N 5) -
      (F 0 * v 0 0 + F 1 * v 0 1 + F 2 * v 0 2 + F 3 * v 0 3 + (F 4 - F 2 * (N * h)) * v 0 4
        + (F 5 + F 1 * (N * h)) * v 0 5) := by
  have hG := beamShear_pos hE hV
  have key : ∀ n ≤ N, ((List.range n).map fun i => beamForm (rodNodes N h) E V a b v (cantilever E V a b h N F) [i, i + 1]).sum =
      (F 0 * v n 0 + F 1 * v n 1 + F 2 * v n 2 + F 3 * v n 3 + (F 4 - F 2 * (N * h - n * h)) * v n 4
        + (F 5 + F 1 * (N * h - n * h)) * v n 5) -
      (F 0 * v 0 0 + F 1 * v 0 1 + F 2 * v 0 2 + F 3 * v 0 3 + (F 4 - F 2 * (N * h)) * v 0 4
        + (F 5 + F 1 * (N * h)) * v 0 5) := by
    intro n
    induction n with
    | zero => intro _; simp
    | succ n ih =>
      intro hn
      rw [List.range_succ, List.map_append, List.sum_append, ih (by omega), List.map_singleton, List.sum_singleton]
      obtain ⟨⟨r0, r1, r2⟩, r3, r4, r5⟩ := cantilever_strain (F := F) hh hE hV ha hb (N := N) (i := n) (by omega)
      obtain ⟨s0, s1, s2⟩ := rod_span (h := h) (N := N) (i := n) (by omega)
      simp only [beamForm, r0, r1, r2, r3, r4, r5]
      simp only [slip, bend, endMean, s0, s1, s2, Matrix.cons_val_zero, Matrix.cons_val_one, Matrix.cons_val, Nat.reduceAdd]
      push_cast
      generalize beamShear E V = G at hG
      field_simp
      ring
  have := key N le_rfl
  rw [sub_self, mul_zero, mul_zero, sub_zero, add_zero] at this
  unfold beamWork rodElements
  rw [List.map_map]
  exact this

/-- **C133**: the cantilever.  A beam of length `N h`, divided into `N` elements, clamped at one end and loaded with
forces and moments at the other: the only solution of the equations of the program has the axial displacements, the
twists and the slopes of beam theory at all nodes; the deflections of beam theory with shear, less `F h² s / (12 E I)` at
distance `s` from the clamp. -/
theorem C133_cantilever (hh : 0 < h) (hE : 0 < E) (hV : -1 < V) (ha : 0 < a) (hb : 0 < b) :
    ∃ calls, beamCalls (rodNodes N h) (rodElements N) (tipLoad N F) E V a b = some calls ∧ ∀ v : ℕ → ℕ → ℝ,
      ((∀ p ∈ freeDofs (freeTable (N + 1) 6) clamp, residual calls v p.1 p.2 = 0) ∧
        ∀ n d, ¬ IsFree (freeTable (N + 1) 6) clamp (n, d) → v n d = 0) ↔
      v = fun m j => if m ≤ N then cantileverAt E V a b (N * h) h F (m * h) j else 0 := by
  have hq : ∀ p ∈ tipLoad N F, p.1.1 < (rodNodes N h).length ∧ p.1.2 < 6 := by
    intro p hp
    obtain ⟨j, hj, rfl⟩ := List.mem_map.1 hp
    rw [rod_length]
    exact ⟨by simp, List.mem_range.1 hj⟩
  obtain ⟨calls, h1, h2⟩ := C133_unique (q := tipLoad N F) (bc := clamp) (rod_beams hh) hE hV ha hb rod_restrained hq
  obtain ⟨calls', h1', -, h3⟩ := C133_equations (E := E) (rod_beams (N := N) hh) ha.ne' hb.ne' (by linarith : 1 + V ≠ 0) hq
  obtain rfl := Option.some.inj (h1'.symm.trans h1)
  rw [rod_length] at h2
  obtain ⟨w, -, hw⟩ := h2 fun _ _ => 0
  have hsol : (∀ p ∈ freeDofs (freeTable (N + 1) 6) clamp, residual calls' (cantilever E V a b h N F) p.1 p.2 = 0) ∧
        ∀ n d, ¬ IsFree (freeTable (N + 1) 6) clamp (n, d) → cantilever E V a b h N F n d = 0 := by
    constructor
    · rintro ⟨n, d⟩ hp
      obtain ⟨g1, g2, g3⟩ := free_table.1 (of_decide_eq_true (List.mem_filter.1 hp).2 : IsFree (freeTable (N + 1) 6) clamp (n, d))
      have hn : n ≠ 0 := by
        rintro rfl
        exact g3 (by simp [clamp]; exact g2)
      show residual calls' _ n d = 0
      rw [h3, cantilever_work hh hE hV ha hb]
      have e0 : ∀ j, (unitField n d : ℕ → ℕ → ℝ) 0 j = 0 := fun j => if_neg fun hc => hn hc.1.symm
      simp only [e0, tipLoad, unitField, show List.range 6 = [0, 1, 2, 3, 4, 5] from rfl, List.map_cons, List.map_nil,
        List.sum_cons, List.sum_nil, Prod.mk.injEq]
      by_cases hN : N = n
      · subst hN
        interval_cases d <;> simp [Ne.symm hn]
      · simp [hN, Ne.symm hn]
    · intro n d hn
      by_cases h6 : n ≤ N
      · simp only [cantilever, if_pos h6]
        by_cases h7 : d < 6
        · have : n = 0 := by
            by_contra h0
            exact hn (free_table.2 ⟨by omega, h7, by simp [clamp]; omega⟩)
          subst this
          interval_cases d <;> simp [cantileverAt, deflection, inclination]
        · obtain ⟨k, rfl⟩ : ∃ k, d = k + 6 := ⟨d - 6, by omega⟩
          rfl
      · exact if_neg h6
  refine ⟨calls', h1', fun v => ⟨fun hv => ?_, fun hv => ?_⟩⟩
  · exact (hw v hv).trans (hw _ hsol).symm
  · rw [hv]
    exact hsol

/-- **C133**: the deflection of the equations falls short of beam theory with shear (the limit of small elements) by
`F h² s / (12 E I)`; all rotations and the axial displacement agree with it at every division. -/
theorem C133_deviation (L s : ℝ) : cantileverAt E V a b L h F s 2 =
      cantileverAt E V a b L 0 F s 2 - F 2 * h ^ 2 * s / (12 * (E * (a * b ^ 3 / 12))) ∧
    cantileverAt E V a b L h F s 1 =
      cantileverAt E V a b L 0 F s 1 - F 1 * h ^ 2 * s / (12 * (E * (a ^ 3 * b / 12))) ∧
    ∀ j, j ≠ 1 → j ≠ 2 → cantileverAt E V a b L h F s j = cantileverAt E V a b L 0 F s j := by
  refine ⟨?_, ?_, fun j h1 h2 => ?_⟩
  · simp only [cantileverAt, deflection]
    ring
  · simp only [cantileverAt, deflection]
    ring
  · match j with
    | 0 | 3 | 4 | 5 => rfl
    | 1 => exact absurd rfl h1
    | 2 => exact absurd rfl h2
    | _ + 6 => rfl

/-- **C133**: on a cantilever with a load the program reports convergence. -/
theorem C133_cantilever_run (hh : 0 < h) (hE : 0 < E) (hV : -1 < V) (ha : 0 < a) (hb : 0 < b) (hN0 : 0 < N)
    (hN : (N + 1) * 6 ≤ 100000) (hF : ∃ j < 6, F j ≠ 0) :
    ∃ u, beamStatic (rodNodes N h) (rodElements N) clamp (tipLoad N F) E V a b = some (u, true) := by
  have hz : given (zeroField (rodNodes N h).length 6) (freeTable (rodNodes N h).length 6) clamp = fun _ _ => (0 : ℝ) := by
    funext n d
    exact given_zero (by
      intro p hp
      obtain ⟨j, -, rfl⟩ := List.mem_map.1 hp
      rfl) n d
  refine C133_solves (rod_beams hh) hE hV ha hb rod_restrained (fun p hp => ?_) (fun p hp => ?_) (by rw [rod_length]; exact hN) ?_
  · obtain ⟨j, hj, rfl⟩ := List.mem_map.1 hp
    rw [rod_length]
    exact ⟨by simp, List.mem_range.1 hj⟩
  · obtain ⟨j, hj, rfl⟩ := List.mem_map.1 hp
    rw [rod_length]
    exact ⟨by simp, List.mem_range.1 hj⟩
  · obtain ⟨j, hj, hne⟩ := hF
    have hfree : IsFree (freeTable (N + 1) 6) clamp (N, j) := free_table.2 ⟨by omega, hj, by simp [clamp]; omega⟩
    refine ⟨(N, j), List.mem_filter.2 ⟨mem_allDofs (by rw [rod_length, dofNum_of_numOf hfree.1]; rfl),
      decide_eq_true (by rw [rod_length]; exact hfree)⟩, ?_⟩
    rw [hz]
    have h0 : beamWork (rodNodes N h) (rodElements N) E V a b (unitField N j) (fun _ _ => 0) = 0 := by
      unfold beamWork rodElements
      refine List.sum_eq_zero fun r hr => ?_
      rw [List.map_map] at hr
      obtain ⟨i, -, rfl⟩ := List.mem_map.1 hr
      simp [beamForm, slip, bend, endMean]
    show beamWork (rodNodes N h) (rodElements N) E V a b (unitField N j) (fun _ _ => 0) ≠ _
    rw [h0]
    refine Ne.symm ?_
    simp only [tipLoad, show List.range 6 = [0, 1, 2, 3, 4, 5] from rfl, List.map_cons, List.map_nil, List.sum_cons,
      List.sum_nil, Prod.mk.injEq, true_and]
    interval_cases j <;> simpa using hne

end

/-- The shipped model: four nodes at distance 5, a section of 1 x 1, a load of -10 in the third direction.  The slope at
the tip is that of bending theory and the deflection of the equations is -0.627..., that of beam theory -0.645.... -/
example : (∃ u, beamStatic (rodNodes 3 5) (rodElements 3) clamp (tipLoad 3 fun j => if j = 2 then -10 else 0) 210000
      (3 / 10) 1 1 = some (u, true)) ∧
    cantileverAt 210000 (3 / 10) 1 1 15 5 (fun j => if j = 2 then -10 else 0) 15 4 = 9 / 140 ∧
    cantileverAt 210000 (3 / 10) 1 1 15 5 (fun j => if j = 2 then -10 else 0) 15 2 = -(21953 / 35000) ∧
    cantileverAt 210000 (3 / 10) 1 1 15 0 (fun j => if j = 2 then -10 else 0) 15 2 = -(11289 / 17500) := by
  refine ⟨C133_cantilever_run (by norm_num) (by norm_num) (by norm_num) (by norm_num) (by norm_num) (by norm_num)
    (by norm_num) ⟨2, by norm_num, by norm_num⟩, ?_, ?_, ?_⟩ <;>
    norm_num [cantileverAt, beamShear, deflection, inclination]

/-- The clamped end alone holds the shipped model; a hinge there would not. -/
example : Restrained (rodNodes 3 5) (rodElements 3) (clamp.map Prod.fst) ∧
    ¬ Restrained (rodNodes 3 5) (rodElements 3) [(0, 0), (0, 1), (0, 2), (0, 3)] := by
  refine ⟨rod_restrained, fun hc => ?_⟩
  have := (hc 0 (by simp [rod_length]) 0 ![0, 1, 0] (by
    obtain ⟨q0, q1, q2⟩ := rod_coord (h := 5) (N := 3) (i := 0) (by omega)
    intro p hp _
    simp only [List.mem_cons, List.not_mem_nil, or_false] at hp
    rcases hp with rfl | rfl | rfl | rfl <;> simp [rigid6At, q0, q1, q2])).2
  have := congrFun this 1
  simp at this

/-- A mast along the third axis is not for this program. -/
example : beamStatic [⟨[0, 0, 0]⟩, ⟨[0, 0, 1]⟩] [[0, 1]] clamp (tipLoad 1 fun _ => 1) 1 0 1 1 = none :=
  C133_upright (e := [0, 1]) (m := 0) (n := 1) (by simp) rfl (by simp [coord, nodal, Vec.at?, Vec.size])

end Pansfem
