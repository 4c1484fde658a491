/-
C130: the stationary advection-diffusion program.
-/
import Verif.Lemmas.Advection
import Verif.Lemmas.StaticExact
import Verif.Lemmas.FlowDefined
import Verif.Props.C127_Flow

namespace Pansfem

open Matrix

section
variable {x : List (Vec ℝ)} {elements : List (List ℕ)} {bc : List ((ℕ × ℕ) × ℝ)} {w : Fin 2 → ℝ} {k : ℝ}

theorem advectionCore_spec {a b c : ℕ} {X : Matrix (Fin 3) (Fin 2) ℝ} (h : gather x [a, b, c] 3 2 = some X)
    (hp : 0 < triArea x a b c) (hw : w ≠ 0) (hk : 0 ≤ k) : ∃ A, advectionCore w k X = some A ∧ ∀ v u : ℕ → ℕ → ℝ,
      nodeValues 3 [a, b, c] v ⬝ᵥ (A *ᵥ nodeValues 3 [a, b, c] u) =
        transportForm x w k (fun m => v m 0) (fun m => u m 0) [a, b, c] := by
  obtain ⟨A, hA, h1⟩ := transportCore_spec h hp hw hk
  obtain ⟨D, hD⟩ : ∃ D, shockCapturing SF.triangle3 IC.gauss1Triangle X w k = some D :=
    loop2_defined (triangle_regular h hp) fun g => by
      have := triangle_tau h hp hw hk (IC.gauss1Triangle.points g)
      simp only [advTau, Option.bind_eq_bind, Option.bind_eq_some_iff] at this
      obtain ⟨s, hs, -⟩ := this
      simp only [shockTau, hs, Option.bind_eq_bind, Option.bind_some, Option.pure_def]
      exact ⟨_, rfl⟩
  exact ⟨A, by simp [advectionCore, hA, hD], h1⟩

/-- The calls of the program and their sum. -/
theorem advectionCalls_spec (hT : Triangles x elements) (hw : w ≠ 0) (hk : 0 ≤ k) :
    ∃ calls, advectionCalls w k x elements = some calls ∧
      (∀ c ∈ calls, c.Fits (freeTable x.length 1) (zeroField x.length 1)) ∧
      (∀ c ∈ calls, ∀ a, c.rhs a = 0) ∧
      ∀ v u : ℕ → ℕ → ℝ, energy calls v u = transport x w k elements (fun m => v m 0) (fun m => u m 0) := by
  have key : ∀ e ∈ elements, ∃ c, (do
      let (Ke, nte) ← elemM 1 (scalarCore (advectionCore w k)) e [0] x
      return AsmCall.matrix Ke nte e : Option (AsmCall ℝ)) = some c ∧
      ElemCall (scalarCore (advectionCore w k)) [0] x e c ∧ (∀ a, c.rhs a = 0) ∧
      ∀ v u : ℕ → ℕ → ℝ, callEnergy c v u = transportForm x w k (fun m => v m 0) (fun m => u m 0) e := by
    intro e he
    obtain ⟨h1, a, b, c, rfl, hp⟩ := hT e he
    obtain ⟨X, hX⟩ := triangle_coords h1 (n := 3) rfl
    obtain ⟨A, hA, h2⟩ := advectionCore_spec hX hp hw hk
    have hA' : scalarCore (advectionCore w k) X = some (A.submatrix Prod.fst Prod.fst) := by rw [scalarCore, hA]; rfl
    refine ⟨_, ?_, ⟨X, _, hX, hA', rfl⟩, fun a => rfl, fun v u => ?_⟩
    · rw [(elemM_eq_some (k := 1) (dl := [0])).2 ⟨rfl, X, _, hX, hA', rfl, rfl⟩]
      rfl
    · rw [scalar_energy A rfl, h2]
  haveI : Nonempty (AsmCall ℝ) := ⟨.nodal []⟩
  choose! C hC using key
  refine ⟨elements.map C, mapM_some fun e he => (hC e he).1, fun c hc => ?_, fun c hc => ?_, fun v u => ?_⟩
  · obtain ⟨e, he, rfl⟩ := List.mem_map.1 hc
    exact elem_fits rfl (by simp) (by norm_num) (hC e he).2.1
  · obtain ⟨e, he, rfl⟩ := List.mem_map.1 hc
    exact (hC e he).2.2.1
  · rw [energy_eq, List.map_map]
    exact congrArg List.sum (List.map_congr_left fun e he => (hC e he).2.2.2 v u)

theorem unitField_hat (n : ℕ) : (fun m => (unitField n 0 : ℕ → ℕ → ℝ) m 0) = hat n := by
  funext m
  simp [unitField, hat]

theorem callLoad_zero {c : AsmCall ℝ} (h : ∀ a, c.rhs a = 0) (v : ℕ → ℕ → ℝ) : callLoad c v = 0 := by
  unfold callLoad
  refine List.sum_eq_zero fun r hr => ?_
  obtain ⟨p, -, rfl⟩ := List.mem_map.1 hr
  rw [h, mul_zero]

/-- **C130**: the equations.  On a mesh of triangles of positive area, with a velocity that is not zero, the matrices
of all elements are defined, and the residual at a node is the weak form of `w·∇T - k ΔT = 0` with streamline
diffusion, tested with the hat function of the node. -/
theorem C130_equations (hT : Triangles x elements) (hw : w ≠ 0) (hk : 0 ≤ k) :
    ∃ calls, advectionCalls w k x elements = some calls ∧
      (∀ c ∈ calls, c.Fits (freeTable x.length 1) (zeroField x.length 1)) ∧
      ∀ (T : ℕ → ℕ → ℝ) (n : ℕ), residual calls T n 0 = transport x w k elements (hat n) fun m => T m 0 := by
  obtain ⟨calls, h1, h2, h3, h4⟩ := advectionCalls_spec (w := w) (k := k) hT hw hk
  refine ⟨calls, h1, h2, fun T n => ?_⟩
  rw [residual_eq, h4, unitField_hat, List.sum_eq_zero, sub_zero]
  intro r hr
  obtain ⟨c, hc, rfl⟩ := List.mem_map.1 hr
  exact callLoad_zero (h3 c hc) _

/-- **C130**: without a velocity the program divides zero by zero at the first element. -/
theorem C130_still (s : LinSolver) {e : List ℕ} : advectionStatic s (0 : Fin 2 → ℝ) k x (e :: elements) bc = none := by
  have : advectionCalls (0 : Fin 2 → ℝ) k x (e :: elements) = none := by
    cases h : advectionCalls (0 : Fin 2 → ℝ) k x (e :: elements) with
    | none => rfl
    | some calls =>
      exfalso
      obtain ⟨c, -, X, A, -, hA, -⟩ := (matrixCalls_some h).2 e (List.mem_cons_self ..)
      obtain ⟨B, hB, -⟩ := Option.map_eq_some_iff.1 hA
      simp [advectionCore, transport_still] at hB
  simp [advectionStatic, this]

/-- **C130**: a run.  The result has the given values, and the solver reported convergence exactly if the norm of the
weak forms of the free nodes is below `1e-10` times that of the given values alone. -/
theorem C130_run (s : LinSolver) (hs : s.Certifies) (hT : Triangles x elements) (hw : w ≠ 0) (hk : 0 ≤ k)
    {T : List (Vec ℝ)} {conv : Bool} (h : advectionStatic s w k x elements bc = some (T, conv)) :
    (∀ m v, lastValue bc m 0 = some v → nodal T m 0 = some v) ∧
    (conv = true ↔ dofNorm (freeDofs (freeTable x.length 1) bc)
        (fun n _ => transport x w k elements (hat n) fun m => valOf T m 0) < 1 / 10 ^ 10 *
      dofNorm (freeDofs (freeTable x.length 1) bc) (fun n _ => transport x w k elements (hat n) fun m =>
        given (zeroField x.length 1) (freeTable x.length 1) bc m 0)) := by
  obtain ⟨calls, h1, h2, h3⟩ := C130_equations (w := w) (k := k) hT hw hk
  simp only [advectionStatic, h1, Option.bind_eq_bind, Option.bind_some] at h
  obtain ⟨a1, -, a3⟩ := C108_result s hs _ T _ bc calls conv h2 h
  refine ⟨fun m v hv => a1 m 0 v hv, ?_⟩
  have e : ∀ u : ℕ → ℕ → ℝ, dofNorm (freeDofs (freeTable x.length 1) bc) (residual calls u) =
      dofNorm (freeDofs (freeTable x.length 1) bc) (fun n _ => transport x w k elements (hat n) fun m => u m 0) := by
    intro u
    unfold dofNorm
    refine congrArg Real.sqrt (congrArg List.sum (List.map_congr_left fun p hp => ?_))
    have hp' := of_decide_eq_true (List.mem_filter.1 hp).2
    obtain ⟨n, d⟩ := p
    have hd := (free_table.1 hp').2.1
    have hd : d = 0 := by omega
    subst hd
    simp only [h3]
  rw [a3, e, e]

/-- **C130**: with a solver that never divides by zero the program returns. -/
theorem C130_answers (s : LinSolver) (hs : s.Answers) (hT : Triangles x elements) (hw : w ≠ 0) (hk : 0 ≤ k)
    (hbc : ∀ r ∈ bc, r.1.1 < x.length ∧ r.1.2 < 1) : ∃ T conv, advectionStatic s w k x elements bc = some (T, conv) := by
  obtain ⟨calls, h1, h2, -⟩ := C130_equations (w := w) (k := k) hT hw hk
  obtain ⟨⟨u, t₁⟩, h3⟩ := Option.isSome_iff_exists.1 ((C21_defined (zeroField x.length 1) (freeTable x.length 1) bc).2
    fun r hr => ⟨zeroField_isSome.2 (hbc r hr), by simp [dofNum, freeTable, (hbc r hr).1, (hbc r hr).2]⟩)
  obtain ⟨T, conv, h4⟩ := solveStep_answers hs (renumbering_numbered t₁) (fun c hc => fits_renumbered h3 (h2 c hc))
    fun a d ha => by
      have h5 := ((numOf_renumbered h3 a d).1 ha).1
      obtain ⟨h6, h7⟩ := freeTable_lt (show (dofNum (freeTable x.length 1) a d).isSome by rw [dofNum_of_numOf h5]; rfl)
      rw [← setDirichlet_same h3, nodal_zeroField h6 h7]
      rfl
  exact ⟨T, conv, by simp only [advectionStatic, staticAnalysis, h1, h3, Option.bind_eq_bind, Option.bind_some, h4]⟩

/-! ### Energy -/

/-- **C130**: the energy.  On a mesh of triangles that fit together the form of a field with itself is half the outflow
of its square over the boundary plus the diffusion and the streamline diffusion. -/
theorem C130_energy (hT : Triangles x elements) {boundary : List (ℕ × ℕ)} (hC : Conforming elements boundary)
    (v : ℕ → ℝ) : transport x w k elements v v =
      (boundary.map (sideEnergy x w v)).sum + (elements.map (dissipation x w k v)).sum := by
  rw [← sides_sum (v := v) hC, List.map_flatMap, List.flatMap, List.sum_flatten, List.map_map, ← List.sum_map_add]
  refine congrArg List.sum (List.map_congr_left fun e he => ?_)
  obtain ⟨-, a, b, c, rfl, hp⟩ := hT e he
  rw [Function.comp_apply, ← advection_sides hp.ne']
  simp only [transportForm, dissipation]
  ring

theorem dissipation_nonneg (hT : Triangles x elements) (hw : w ≠ 0) (hk : 0 ≤ k) (v : ℕ → ℝ) :
    ∀ e ∈ elements, 0 ≤ dissipation x w k v e := by
  intro e he
  obtain ⟨-, a, b, c, rfl, hp⟩ := hT e he
  have := supgTime_nonneg (x := x) hp hw hk
  simp only [dissipation]
  positivity

theorem flat_slope {a b c : ℕ} (hp : 0 < triArea x a b c) {v : ℕ → ℝ} (h0 : slope x a b c ![1, 0] v = 0)
    (h1 : slope x a b c ![0, 1] v = 0) : v a = v b ∧ v b = v c := by
  simp only [slope, Matrix.cons_val_zero, Matrix.cons_val_one, div_eq_zero_iff, hp.ne', or_false] at h0 h1
  have e1 : (v b - v a) * triArea x a b c = 0 := by
    unfold triArea
    linear_combination (coord x b 0 - coord x a 0) * h0 + (coord x b 1 - coord x a 1) * h1
  have e2 : (v c - v a) * triArea x a b c = 0 := by
    unfold triArea
    linear_combination (coord x c 0 - coord x a 0) * h0 + (coord x c 1 - coord x a 1) * h1
  have r1 := (mul_eq_zero.1 e1).resolve_right hp.ne'
  have r2 := (mul_eq_zero.1 e2).resolve_right hp.ne'
  constructor <;> linarith

theorem sideEnergy_nonneg {boundary : List (ℕ × ℕ)} (hin : InflowGiven x w boundary bc) {v : ℕ → ℝ}
    (hv : ∀ m, (m, 0) ∈ bc.map Prod.fst → v m = 0) : ∀ s ∈ boundary, 0 ≤ sideEnergy x w v s := by
  intro s hs
  unfold sideEnergy
  rcases hin s hs with h | ⟨h1, h2⟩
  · have : 0 ≤ v s.1 ^ 2 + v s.1 * v s.2 + v s.2 ^ 2 := by nlinarith [sq_nonneg (v s.1 + v s.2), sq_nonneg (v s.1), sq_nonneg (v s.2)]
    positivity
  · rw [hv _ h1, hv _ h2]
    simp

/-- **C130**: if the values are given where the flow enters, the form of a field that vanishes at the given nodes is at
least its dissipation. -/
theorem C130_dissipative (hT : Triangles x elements) {boundary : List (ℕ × ℕ)} (hC : Conforming elements boundary)
    (hin : InflowGiven x w boundary bc) {v : ℕ → ℝ} (hv : ∀ m, (m, 0) ∈ bc.map Prod.fst → v m = 0) :
    (elements.map (dissipation x w k v)).sum ≤ transport x w k elements v v := by
  rw [C130_energy hT hC]
  have : 0 ≤ (boundary.map (sideEnergy x w v)).sum := List.sum_nonneg fun r hr => by
    obtain ⟨s, hs, rfl⟩ := List.mem_map.1 hr
    exact sideEnergy_nonneg hin hv s hs
  linarith

/-- **C130**: with diffusion, and every node linked to a given one, the form is positive. -/
theorem C130_positive (hT : Triangles x elements) {boundary : List (ℕ × ℕ)} (hC : Conforming elements boundary)
    (hin : InflowGiven x w boundary bc) (hw : w ≠ 0) (hk : 0 < k)
    (hconn : ∀ m < x.length, Anchored elements (bc.map Prod.fst) m) {v : ℕ → ℝ}
    (hv : ∀ m, (m, 0) ∈ bc.map Prod.fst → v m = 0) (hne : ∃ m < x.length, v m ≠ 0) :
    0 < transport x w k elements v v := by
  refine lt_of_lt_of_le ?_ (C130_dissipative hT hC hin hv)
  have hn := dissipation_nonneg hT hw hk.le v
  refine lt_of_le_of_ne (List.sum_nonneg fun r hr => by
    obtain ⟨e, he, rfl⟩ := List.mem_map.1 hr
    exact hn e he) fun h0 => ?_
  have hz : ∀ e ∈ elements, dissipation x w k v e = 0 := by
    intro e he
    refine le_antisymm ?_ (hn e he)
    rw [h0]
    refine List.single_le_sum (fun r hr => ?_) _ (List.mem_map.2 ⟨e, he, rfl⟩)
    obtain ⟨e', he', rfl⟩ := List.mem_map.1 hr
    exact hn e' he'
  have hflat : ∀ e ∈ elements, ∀ m ∈ e, ∀ m' ∈ e, v m = v m' := by
    intro e he
    have h1 := hz e he
    obtain ⟨-, a, b, c, rfl, hp⟩ := hT e he
    have ht := supgTime_nonneg (x := x) hp hw hk.le
    simp only [dissipation] at h1
    have h2 : k * (slope x a b c ![1, 0] v ^ 2 + slope x a b c ![0, 1] v ^ 2) +
      supgTime x a b c w k * slope x a b c w v ^ 2 = 0 := (mul_eq_zero.1 h1).resolve_left (by positivity)
    have h3 : 0 ≤ supgTime x a b c w k * slope x a b c w v ^ 2 := by positivity
    have h4 : slope x a b c ![1, 0] v ^ 2 + slope x a b c ![0, 1] v ^ 2 = 0 := by
      have : 0 ≤ slope x a b c ![1, 0] v ^ 2 + slope x a b c ![0, 1] v ^ 2 := by positivity
      nlinarith
    have h5 : slope x a b c ![1, 0] v = 0 := by nlinarith [sq_nonneg (slope x a b c ![1, 0] v), sq_nonneg (slope x a b c ![0, 1] v)]
    have h6 : slope x a b c ![0, 1] v = 0 := by nlinarith [sq_nonneg (slope x a b c ![1, 0] v), sq_nonneg (slope x a b c ![0, 1] v)]
    obtain ⟨f1, f2⟩ := flat_slope hp h5 h6
    intro m hm m' hm'
    simp at hm hm'
    rcases hm with rfl | rfl | rfl <;> rcases hm' with rfl | rfl | rfl <;> simp_all
  obtain ⟨m, hm, hne⟩ := hne
  refine hne ?_
  have : ∀ m, Anchored elements (bc.map Prod.fst) m → v m = 0 := by
    intro m hA
    induction hA with
    | fixed hf => exact hv _ hf
    | step he h1 h2 _ ih => rw [hflat _ he _ h1 _ h2]; exact ih
  exact this m (hconn m hm)

/-! ### The solution -/

theorem slope_sub (a b c : ℕ) (z : Fin 2 → ℝ) (u u' : ℕ → ℝ) :
    slope x a b c z (u - u') = slope x a b c z u - slope x a b c z u' := by
  simp only [slope, Pi.sub_apply]
  ring

theorem transport_sub (v u u' : ℕ → ℝ) :
    transport x w k elements v (u - u') = transport x w k elements v u - transport x w k elements v u' := by
  unfold transport
  rw [← list_sum_sub]
  refine congrArg List.sum (List.map_congr_left fun e _ => ?_)
  unfold transportForm
  split
  · simp only [slope_sub]
    ring
  · simp

theorem transport_constant (v : ℕ → ℝ) (r : ℝ) : transport x w k elements v (fun _ => r) = 0 := by
  unfold transport
  refine List.sum_eq_zero fun y hy => ?_
  obtain ⟨e, -, rfl⟩ := List.mem_map.1 hy
  have h0 : ∀ (a b c : ℕ) (z : Fin 2 → ℝ), slope x a b c z (fun _ => r) = 0 := fun a b c z => by
    simp only [slope]
    ring
  unfold transportForm
  split
  · simp only [h0]
    ring
  · rfl

/-- `T` takes the given values and meets the weak equation for all test fields that vanish at the given nodes. -/
structure Transported (x : List (Vec ℝ)) (w : Fin 2 → ℝ) (k : ℝ) (elements : List (List ℕ)) (bc : List ((ℕ × ℕ) × ℝ))
    (T : ℕ → ℝ) : Prop where
  given : ∀ m c, lastValue bc m 0 = some c → T m = c
  weak : ∀ v : ℕ → ℝ, (∀ m, (m, 0) ∈ bc.map Prod.fst → v m = 0) → transport x w k elements v T = 0

theorem vanish_difference {T T' : ℕ → ℝ} (h : ∀ m c, lastValue bc m 0 = some c → T m = c)
    (h' : ∀ m c, lastValue bc m 0 = some c → T' m = c) : ∀ m, (m, 0) ∈ bc.map Prod.fst → (T - T') m = 0 := by
  intro m hm
  obtain ⟨r, hr, hrm⟩ := List.mem_map.1 hm
  obtain ⟨s, -, -, hs⟩ := lastValue_of_key hr
  rw [hrm] at hs
  rw [Pi.sub_apply, h m _ hs, h' m _ hs, sub_self]

/-- **C130**: the problem is well posed.  With diffusion, values given where the flow enters and every node linked to a
given one, there is exactly one solution of the equations the program assembles. -/
theorem C130_unique (hT : Triangles x elements) {boundary : List (ℕ × ℕ)} (hC : Conforming elements boundary)
    (hin : InflowGiven x w boundary bc) (hw : w ≠ 0) (hk : 0 < k)
    (hconn : ∀ m < x.length, Anchored elements (bc.map Prod.fst) m) :
    (∃ T, Transported x w k elements bc T) ∧ ∀ T T', Transported x w k elements bc T → Transported x w k elements bc T' →
      ∀ m < x.length, T m = T' m := by
  constructor
  · obtain ⟨calls, h1, h2, h3, h4⟩ := advectionCalls_spec (w := w) (k := k) hT hw hk.le
    obtain ⟨V, ⟨hV1, hV2⟩, -⟩ := static_exact (calls := calls) (t := freeTable x.length 1) (bc := bc)
      (fun c hc p hp => ((h2 c hc).1 p hp).1) (fun v hv hne => by
        rw [h4]
        refine C130_positive hT hC hin hw hk hconn (fun m hm => hv m 0 fun hf => (free_table.1 hf).2.2 hm) ?_
        obtain ⟨m, d, hmd⟩ := hne
        by_cases hf : IsFree (freeTable x.length 1) bc (m, d)
        · have hd : d = 0 := by have := (free_table.1 hf).2.1; omega
          subst hd
          exact ⟨m, (free_table.1 hf).1, hmd⟩
        · exact absurd (hv m d hf) hmd) (fun m d => (lastValue bc m d).getD 0)
    refine ⟨fun m => V m 0, fun m c hc => ?_, fun v hv => ?_⟩
    · rw [hV2 m 0 fun hf => (free_table.1 hf).2.2 (key_of_lastValue hc), hc]
      rfl
    · have := residual_vanishing (bc := bc) (w := fun m d => if d = 0 then v m else 0) h2
        (fun n d hf => hV1 (n, d) (List.mem_filter.2
          ⟨mem_allDofs (by rw [dofNum_of_numOf hf.1]; rfl), decide_eq_true hf⟩)) (fun r hr => by
          obtain ⟨⟨m, d⟩, y⟩ := r
          by_cases hd : d = 0
          · subst hd
            exact (if_pos rfl).trans (hv m (List.mem_map.2 ⟨_, hr, rfl⟩))
          · exact if_neg hd)
      rw [h4, List.sum_eq_zero] at this
      · simpa using this
      · intro r hr
        obtain ⟨c, hc, rfl⟩ := List.mem_map.1 hr
        exact callLoad_zero (h3 c hc) _
  · intro T T' h h' m hm
    by_contra hne
    have hv := vanish_difference h.given h'.given
    have := C130_positive hT hC hin hw hk hconn hv ⟨m, hm, sub_ne_zero.2 hne⟩
    rw [transport_sub, h.weak _ hv, h'.weak _ hv, sub_zero] at this
    exact lt_irrefl _ this

/-- **C130**: if all given values are equal the solution has this value everywhere. -/
theorem C130_constant (hT : Triangles x elements) {boundary : List (ℕ × ℕ)} (hC : Conforming elements boundary)
    (hin : InflowGiven x w boundary bc) (hw : w ≠ 0) (hk : 0 < k)
    (hconn : ∀ m < x.length, Anchored elements (bc.map Prod.fst) m) {r : ℝ} (hr : ∀ p ∈ bc, p.2 = r) {T : ℕ → ℝ}
    (h : Transported x w k elements bc T) : ∀ m < x.length, T m = r :=
  (C130_unique hT hC hin hw hk hconn).2 T (fun _ => r) h
    ⟨fun m c hc => by
      unfold lastValue at hc
      obtain ⟨p, hp, rfl⟩ := Option.map_eq_some_iff.1 hc
      exact (hr p (List.mem_reverse.1 (List.mem_of_find?_eq_some hp))).symm,
    fun v _ => transport_constant v r⟩

theorem sum_filter_of_zero {α : Type} {l : List α} {p : α → Bool} {f : α → ℝ} (h : ∀ a ∈ l, p a = false → f a = 0) :
    (l.map f).sum = ((l.filter p).map f).sum := by
  induction l with
  | nil => rfl
  | cons a l ih =>
    have ih := ih fun b hb => h b (List.mem_cons_of_mem _ hb)
    cases hp : p a with
    | true => simp [List.filter_cons, hp, ih]
    | false => simp [List.filter_cons, hp, ih, h a (List.mem_cons_self ..) hp]

/-- **C130**: the error.  The distance between a field with the given values and the solution dissipates at most the
work of its residuals at the free nodes. -/
theorem C130_error (hT : Triangles x elements) {boundary : List (ℕ × ℕ)} (hC : Conforming elements boundary)
    (hin : InflowGiven x w boundary bc) (hw : w ≠ 0) (hk : 0 ≤ k) {T S : ℕ → ℝ}
    (hS : Transported x w k elements bc S) (h : ∀ m c, lastValue bc m 0 = some c → T m = c) :
    (elements.map (dissipation x w k (T - S))).sum ≤ ((freeDofs (freeTable x.length 1) bc).map fun p =>
      (T - S) p.1 * transport x w k elements (hat p.1) T).sum := by
  have hv := vanish_difference h hS.given
  refine le_trans (C130_dissipative hT hC hin hv) (le_of_eq ?_)
  rw [transport_sub, hS.weak _ hv, sub_zero]
  obtain ⟨calls, h1, h2, h3, h4⟩ := advectionCalls_spec (w := w) (k := k) hT hw hk
  have hwork := residual_work (fun c hc p hp => ((h2 c hc).1 p hp).1) (fun m d => if d = 0 then T m else 0)
    (fun m d => if d = 0 then (T - S) m else 0)
  rw [h4, List.sum_eq_zero (l := calls.map _) (fun r hr => by
    obtain ⟨c, hc, rfl⟩ := List.mem_map.1 hr
    exact callLoad_zero (h3 c hc) _), sub_zero] at hwork
  simp only [if_true] at hwork
  rw [← hwork, sum_filter_of_zero (p := fun p => decide (IsFree (freeTable x.length 1) bc p)) (fun p hp hf => ?_)]
  · refine congrArg List.sum (List.map_congr_left fun p hp => ?_)
    obtain ⟨n, d⟩ := p
    have hd := (free_table.1 (of_decide_eq_true (List.mem_filter.1 hp).2)).2.1
    have hd : d = 0 := by omega
    subst hd
    rw [if_pos rfl, residual_eq, h4, unitField_hat, List.sum_eq_zero, sub_zero]
    · simp
    · intro r hr
      obtain ⟨c, hc, rfl⟩ := List.mem_map.1 hr
      exact callLoad_zero (h3 c hc) _
  · obtain ⟨n, d⟩ := p
    by_cases hd : d = 0
    · subst hd
      by_cases hm : (n, 0) ∈ bc.map Prod.fst
      · rw [if_pos rfl, hv n hm, zero_mul]
      · exfalso
        refine of_decide_eq_false hf (free_table.2 ⟨?_, by norm_num, hm⟩)
        simp [allDofs, freeTable] at hp
        exact hp.1
    · rw [if_neg hd, zero_mul]

/-- **C130**: sample_advectiondiffusion_static.cpp as it is, on any mesh and for any given values. -/
theorem C130_sample (hT : Triangles x elements) {T : List (Vec ℝ)} {conv : Bool}
    (h : advectionSample x elements bc = some (T, conv)) :
    (∀ m v, lastValue bc m 0 = some v → nodal T m 0 = some v) ∧
    (conv = true ↔ dofNorm (freeDofs (freeTable x.length 1) bc)
        (fun n _ => transport x ![1 / 2, √3 / 2] (1 / 10 ^ 6) elements (hat n) fun m => valOf T m 0) < 1 / 10 ^ 10 *
      dofNorm (freeDofs (freeTable x.length 1) bc) (fun n _ => transport x ![1 / 2, √3 / 2] (1 / 10 ^ 6) elements (hat n)
        fun m => given (zeroField x.length 1) (freeTable x.length 1) bc m 0)) := by
  have e : windAt 1 60 = ![1 / 2, √3 / 2] := by
    have : (60 : ℝ) * Real.pi / 180 = Real.pi / 3 := by ring
    rw [windAt, this, Real.cos_pi_div_three, Real.sin_pi_div_three, one_mul, one_mul]
  have h0 : (![1 / 2, √3 / 2] : Fin 2 → ℝ) ≠ 0 := fun hc => by
    have := congrFun hc 0
    simp at this
  rw [advectionSample, e] at h
  exact C130_run useBiCGSTAB (fun _ A M b x conv hA h => C13_bicgstab A M hA b 100000 _ x conv (by norm_num) h) hT h0
    (by norm_num) h

end

/-! ### Examples -/

/-- The corners of a square. -/
def windNodes : List (Vec ℝ) := [⟨[0, 0]⟩, ⟨[1, 0]⟩, ⟨[0, 1]⟩, ⟨[1, 1]⟩]

theorem windNodes_triangles : Triangles windNodes [[0, 1, 2], [1, 3, 2]] := by
  intro e he
  simp at he
  rcases he with rfl | rfl
  · refine ⟨fun m hm => ?_, 0, 1, 2, rfl, ?_⟩
    · simp at hm
      rcases hm with rfl | rfl | rfl <;> simp [nodal, windNodes, Vec.at?, Vec.size]
    · norm_num [triArea, coord, nodal, windNodes, Vec.at?, Vec.size]
  · refine ⟨fun m hm => ?_, 1, 3, 2, rfl, ?_⟩
    · simp at hm
      rcases hm with rfl | rfl | rfl <;> simp [nodal, windNodes, Vec.at?, Vec.size]
    · norm_num [triArea, coord, nodal, windNodes, Vec.at?, Vec.size]

theorem wind_conforming : Conforming [[0, 1, 2], [1, 3, 2]] [(0, 1), (1, 3), (3, 2), (2, 0)] :=
  ⟨[(1, 2)], by decide⟩

/-- Values on the two sides where the wind of the sample enters. -/
def windGiven : List ((ℕ × ℕ) × ℝ) := [((0, 0), 1), ((1, 0), 0), ((2, 0), 1)]

theorem wind_inflow : InflowGiven windNodes ![1 / 2, √3 / 2] [(0, 1), (1, 3), (3, 2), (2, 0)] windGiven := by
  intro s hs
  simp at hs
  have h3 := Real.sqrt_nonneg 3
  rcases hs with rfl | rfl | rfl | rfl
  · right; simp [windGiven]
  · left; norm_num [flux, coord, nodal, windNodes, Vec.at?, Vec.size]
  · left; norm_num [flux, coord, nodal, windNodes, Vec.at?, Vec.size]
    positivity
  · right; simp [windGiven]

theorem wind_anchored : ∀ m < windNodes.length, Anchored [[0, 1, 2], [1, 3, 2]] (windGiven.map Prod.fst) m := by
  intro m hm
  have hm : m < 4 := hm
  interval_cases m
  · exact .fixed (by simp [windGiven])
  · exact .fixed (by simp [windGiven])
  · exact .fixed (by simp [windGiven])
  · exact .step (m' := 1) (e := [1, 3, 2]) (by simp) (by simp) (by simp) (.fixed (by simp [windGiven]))

theorem wind_ne : (![1 / 2, √3 / 2] : Fin 2 → ℝ) ≠ 0 := fun hc => by
  have := congrFun hc 0
  simp at this

/-- `C130_unique`, `C130_error`: the sample on two triangles. -/
example : ∃ S, Transported windNodes ![1 / 2, √3 / 2] (1 / 10 ^ 6) [[0, 1, 2], [1, 3, 2]] windGiven S ∧
    ∀ T : ℕ → ℝ, T 0 = 1 → T 1 = 0 → T 2 = 1 →
      ([[0, 1, 2], [1, 3, 2]].map (dissipation windNodes ![1 / 2, √3 / 2] (1 / 10 ^ 6) (T - S))).sum ≤
        ((freeDofs (freeTable windNodes.length 1) windGiven).map fun p => (T - S) p.1 *
          transport windNodes ![1 / 2, √3 / 2] (1 / 10 ^ 6) [[0, 1, 2], [1, 3, 2]] (hat p.1) T).sum := by
  obtain ⟨⟨S, hS⟩, -⟩ := C130_unique (k := 1 / 10 ^ 6) windNodes_triangles wind_conforming wind_inflow wind_ne (by norm_num)
    wind_anchored
  refine ⟨S, hS, fun T h0 h1 h2 => C130_error windNodes_triangles wind_conforming wind_inflow wind_ne (by norm_num) hS
    fun m c hc => ?_⟩
  obtain ⟨r, hr, hm⟩ := List.mem_map.1 (key_of_lastValue hc)
  simp [windGiven] at hr
  rcases hr with rfl | rfl | rfl <;>
  · obtain ⟨rfl, -⟩ := Prod.mk.inj hm
    simp [lastValue, windGiven] at hc
    rw [← hc]
    assumption

/-- `C130_run`, `C130_answers`: the sample on two triangles with a solver that answers. -/
example : ∃ T conv, advectionStatic idealSolver ![1 / 2, √3 / 2] (1 / 10 ^ 6) windNodes [[0, 1, 2], [1, 3, 2]] windGiven =
    some (T, conv) ∧ nodal T 1 0 = some 0 := by
  obtain ⟨T, conv, h⟩ := C130_answers (k := 1 / 10 ^ 6) (bc := windGiven) idealSolver idealSolver_answers windNodes_triangles
    wind_ne (by norm_num) (by simp [windGiven, windNodes])
  refine ⟨T, conv, h, (C130_run idealSolver idealSolver_certifies windNodes_triangles wind_ne (by norm_num) h).1 1 0 ?_⟩
  simp [lastValue, windGiven]

/-- `C130_positive`: the free node. -/
example : 0 < transport windNodes ![1 / 2, √3 / 2] (1 / 10 ^ 6) [[0, 1, 2], [1, 3, 2]] (hat 3) (hat 3) :=
  C130_positive windNodes_triangles wind_conforming wind_inflow wind_ne (by norm_num) wind_anchored
    (fun m hm => by
      simp [windGiven] at hm
      rcases hm with rfl | rfl | rfl <;> simp [hat]) ⟨3, by simp [windNodes], by simp [hat]⟩

end Pansfem
