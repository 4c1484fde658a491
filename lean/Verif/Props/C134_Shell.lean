/-
C134: the shell program.
-/
import Verif.Lemmas.ShellFlat
import Verif.Lemmas.StaticSemi
import Verif.Lemmas.SquareHeld4
import Verif.Lemmas.SquareProblem
import Verif.Props.C133_Beam

namespace Pansfem

open Matrix

section
variable {x : List (Vec ℝ)} {elements : List (List ℕ)} {bc q : List ((ℕ × ℕ) × ℝ)} {E V t : ℝ}

theorem flat_coords {e : List ℕ} (hF : FlatQuads x elements) (he : e ∈ elements) :
    ∃ p q r s X, e = [p, q, r, s] ∧ gather x [p, q, r, s] 4 3 = some X ∧ Flat X ∧ 0 < quadArea x p q r s := by
  obtain ⟨p, q, r, s, rfl, h1, h2, t0, t1, t2, t3⟩ := hF e he
  obtain ⟨X, hX⟩ := Option.isSome_iff_exists.1 (gather_isSome (x := x) (e := [p, q, r, s]) (n := 4) (d := 3) rfl
    fun k hk j => h1 k hk j j.2)
  have hc : ∀ j : Fin 3, X 0 j = coord x p j ∧ X 1 j = coord x q j ∧ X 2 j = coord x r j ∧ X 3 j = coord x s j := by
    intro j
    have e0 := gather_entry hX 0 j
    have e1 := gather_entry hX 1 j
    have e2 := gather_entry hX 2 j
    have e3 := gather_entry hX 3 j
    simp at e0 e1 e2 e3
    simp [coord, e0, e1, e2, e3]
  have f0 : (X 0 0, X 0 1) = flatAt x p := Prod.ext (hc 0).1 (hc 1).1
  have f1 : (X 1 0, X 1 1) = flatAt x q := Prod.ext (hc 0).2.1 (hc 1).2.1
  have f2 : (X 2 0, X 2 1) = flatAt x r := Prod.ext (hc 0).2.2.1 (hc 1).2.2.1
  have f3 : (X 3 0, X 3 1) = flatAt x s := Prod.ext (hc 0).2.2.2 (hc 1).2.2.2
  have hfl : Flat X := by
    refine ⟨fun i => ?_, ?_, ?_, ?_, ?_⟩
    · have a1 := h2 q (by simp)
      have a2 := h2 r (by simp)
      have a3 := h2 s (by simp)
      obtain ⟨c0, c1, c2, c3⟩ := hc 2
      simp only [Fin.coe_ofNat_eq_mod, Nat.reduceMod] at c0 c1 c2 c3
      fin_cases i
      · rfl
      · show X 1 2 = _; rw [c1, c0, a1]
      · show X 2 2 = _; rw [c2, c0, a2]
      · show X 3 2 = _; rw [c3, c0, a3]
    · rw [f0, f1, f3]; exact t0
    · rw [f0, f1, f2]; exact t1
    · rw [f1, f2, f3]; exact t2
    · rw [f0, f2, f3]; exact t3
  refine ⟨p, q, r, s, X, rfl, hX, hfl, ?_⟩
  have := hfl.area
  unfold flatArea at this
  obtain ⟨a0, a1, a2, a3⟩ := hc 0
  obtain ⟨b0, b1, b2, b3⟩ := hc 1
  simp only [Fin.coe_ofNat_eq_mod, Nat.reduceMod] at a0 a1 a2 a3 b0 b1 b2 b3
  rw [a0, a1, a2, a3, b0, b1, b2, b3] at this
  exact this

/-- The calls of the program. -/
theorem shellCalls_spec (hF : FlatQuads x elements) (ht : t ≠ 0) (hV : 1 - V ^ 2 ≠ 0)
    (hq : ∀ p ∈ q, p.1.1 < x.length ∧ p.1.2 < 6) :
    ∃ calls, shellCalls x elements q E V t = some calls ∧
      (∀ c ∈ calls, c.Fits (freeTable x.length 6) (zeroField x.length 6)) ∧ SymmetricCalls calls ∧
      (∀ v u, energy calls v u = plateWork x elements E V t v u) ∧
      (∀ v, (calls.map fun c => callLoad c v).sum = (q.map fun p => p.2 * v p.1.1 p.1.2).sum) := by
  have key : ∀ e ∈ elements, ∃ c, (do
      let (Ke, nte) ← elemM 6 (shellCore E V t) e [0, 1, 2, 3, 4, 5] x
      return AsmCall.matrix Ke nte e : Option (AsmCall ℝ)) = some c ∧
      ElemCall (shellCore E V t) [0, 1, 2, 3, 4, 5] x e c ∧ (∀ a, c.rhs a = 0) ∧
      ∀ v u : ℕ → ℕ → ℝ, callEnergy c v u = plateForm x E V t v u e := by
    intro e he
    obtain ⟨p, q, r, s, X, rfl, hX, hfl, -⟩ := flat_coords hF he
    obtain ⟨A, hA, h2⟩ := shellCore_spec (E := E) hX hfl ht hV
    refine ⟨_, ?_, ⟨X, _, hX, hA, rfl⟩, fun a => rfl, fun v u => ?_⟩
    · rw [(elemM_eq_some (k := 6) (dl := [0, 1, 2, 3, 4, 5])).2 ⟨rfl, X, _, hX, hA, rfl, rfl⟩]
      rfl
    · rw [matrix_energy A rfl rfl, h2]
  haveI : Nonempty (AsmCall ℝ) := ⟨.nodal []⟩
  choose! C hC using key
  have hks : matrixCalls 6 (shellCore E V t) [0, 1, 2, 3, 4, 5] x elements = some (elements.map C) :=
    mapM_some fun e he => (hC e he).1
  refine ⟨elements.map C ++ [.nodal q], by
    simp only [shellCalls, hks, Option.bind_eq_bind, Option.bind_some, Option.pure_def], fun c hc => ?_, fun c hc => ?_,
    fun v u => ?_, fun v => ?_⟩
  · rcases List.mem_append.1 hc with hc | hc
    · obtain ⟨e, he, rfl⟩ := List.mem_map.1 hc
      exact elem_fits rfl (by decide) (by norm_num) (hC e he).2.1
    · rw [List.mem_singleton.1 hc]
      exact nodal_fits' hq
  · rcases List.mem_append.1 hc with hc | hc
    · obtain ⟨e, he, rfl⟩ := List.mem_map.1 hc
      have hs : ∀ X A, shellCore E V t X = some A → Aᵀ = A := fun X A hA => by
        unfold shellCore at hA
        exact C32_shell2 hA
      exact elem_sym (k := 6) (dl := [0, 1, 2, 3, 4, 5]) rfl (hC e he).2.1 hs
    · rw [List.mem_singleton.1 hc]
      intros; rfl
  · rw [energy_eq, List.map_append, List.sum_append, List.map_map, List.map_singleton, List.sum_singleton, nodal_energy,
      add_zero]
    exact congrArg List.sum (List.map_congr_left fun e he => (hC e he).2.2.2 v u)
  · rw [List.map_append, List.sum_append, List.map_map, List.map_singleton, List.sum_singleton, nodal_work,
      List.sum_eq_zero, zero_add]
    intro r hr
    obtain ⟨e, he, rfl⟩ := List.mem_map.1 hr
    show callLoad (C e) v = 0
    unfold callLoad
    refine List.sum_eq_zero fun r hr => ?_
    obtain ⟨p, -, rfl⟩ := List.mem_map.1 hr
    rw [(hC e he).2.2.1, mul_zero]

/-- The loads of a dof. -/
theorem loads_at (q : List ((ℕ × ℕ) × ℝ)) (n d : ℕ) : (q.map fun p => p.2 * unitField n d p.1.1 p.1.2).sum =
    (q.map fun p => if p.1 = (n, d) then p.2 else 0).sum := by
  refine congrArg List.sum (List.map_congr_left fun p _ => ?_)
  unfold unitField
  by_cases h : p.1 = (n, d)
  · simp [h]
  · rw [if_neg h, if_neg fun hc => h (Prod.ext hc.1 hc.2), mul_zero]

/-- **C134**: the equations.  On flat convex quadrilaterals the matrices of all elements are defined, and the residual at a
dof is the virtual work of a unit displacement there: membrane forces, bending moments and shear forces at the centres of
the elements, minus the loads of the dof. -/
theorem C134_equations (hF : FlatQuads x elements) (ht : t ≠ 0) (hV : 1 - V ^ 2 ≠ 0)
    (hq : ∀ p ∈ q, p.1.1 < x.length ∧ p.1.2 < 6) :
    ∃ calls, shellCalls x elements q E V t = some calls ∧
      (∀ c ∈ calls, c.Fits (freeTable x.length 6) (zeroField x.length 6)) ∧
      ∀ (v : ℕ → ℕ → ℝ) (n d : ℕ), residual calls v n d =
        plateWork x elements E V t (unitField n d) v - (q.map fun p => if p.1 = (n, d) then p.2 else 0).sum := by
  obtain ⟨calls, h1, h2, -, h4, h5⟩ := shellCalls_spec (E := E) hF ht hV hq
  refine ⟨calls, h1, h2, fun v n d => ?_⟩
  rw [residual_eq, h4, h5, loads_at]

/-- **C134**: a run.  The result has the given displacements and rotations, and the solver reported convergence exactly if
the norm of the residuals at the free dofs is below `1e-10` times that of the given values alone. -/
theorem C134_run (hF : FlatQuads x elements) (ht : t ≠ 0) (hV : 1 - V ^ 2 ≠ 0)
    (hq : ∀ p ∈ q, p.1.1 < x.length ∧ p.1.2 < 6) {u : List (Vec ℝ)} {conv : Bool}
    (h : shellStatic x elements bc q E V t = some (u, conv)) :
    (∀ m d v, lastValue bc m d = some v → nodal u m d = some v) ∧
    (conv = true ↔ dofNorm (freeDofs (freeTable x.length 6) bc) (fun n d =>
        plateWork x elements E V t (unitField n d) (valOf u) - (q.map fun p => if p.1 = (n, d) then p.2 else 0).sum) <
      1 / 10 ^ 10 * dofNorm (freeDofs (freeTable x.length 6) bc) (fun n d =>
        plateWork x elements E V t (unitField n d) (given (zeroField x.length 6) (freeTable x.length 6) bc) -
          (q.map fun p => if p.1 = (n, d) then p.2 else 0).sum)) := by
  obtain ⟨calls, h1, h2, h3⟩ := C134_equations (E := E) hF ht hV hq
  simp only [shellStatic, h1, Option.bind_eq_bind, Option.bind_some] at h
  obtain ⟨a1, -, a3⟩ := C108_result useCG useCG_certifies _ u _ bc calls conv h2 h
  have e : ∀ w : ℕ → ℕ → ℝ, residual calls w = fun n d =>
      plateWork x elements E V t (unitField n d) w - (q.map fun p => if p.1 = (n, d) then p.2 else 0).sum :=
    fun w => funext fun n => funext fun d => h3 w n d
  rw [e, e] at a3
  exact ⟨a1, a3⟩

/-! ### Fields without energy -/

/-- The field strains no element: no membrane strain, no curvature, no shear at the centres. -/
def Unstrained (x : List (Vec ℝ)) (elements : List (List ℕ)) (v : ℕ → ℕ → ℝ) : Prop :=
  ∀ p q r s, [p, q, r, s] ∈ elements →
    slope0 x p q r s (fun m => v m 0) = 0 ∧ slope1 x p q r s (fun m => v m 1) = 0 ∧
    slope1 x p q r s (fun m => v m 0) + slope0 x p q r s (fun m => v m 1) = 0 ∧
    slope0 x p q r s (fun m => v m 4) = 0 ∧ slope1 x p q r s (fun m => - v m 3) = 0 ∧
    slope1 x p q r s (fun m => v m 4) + slope0 x p q r s (fun m => - v m 3) = 0 ∧
    slope0 x p q r s (fun m => v m 2) + mean4 p q r s (fun m => v m 4) = 0 ∧
    slope1 x p q r s (fun m => v m 2) - mean4 p q r s (fun m => v m 3) = 0

theorem planeWork_nonneg (hE : 0 < E) (hV : |V| < 1) {p q r s : ℕ} (f0 f1 : ℕ → ℝ) :
    0 ≤ planeWork x E V p q r s f0 f1 f0 f1 ∧ (planeWork x E V p q r s f0 f1 f0 f1 = 0 →
      slope0 x p q r s f0 = 0 ∧ slope1 x p q r s f1 = 0 ∧ slope1 x p q r s f0 + slope0 x p q r s f1 = 0) := by
  obtain ⟨v1, v2⟩ := abs_lt.1 hV
  have h1 : 0 < 1 - V ^ 2 := by nlinarith
  have hc : 0 < E / (1 - V ^ 2) := div_pos hE h1
  unfold planeWork
  set a := slope0 x p q r s f0
  set b := slope1 x p q r s f1
  set c := slope1 x p q r s f0 + slope0 x p q r s f1
  have e : a * (a + V * b) + b * (V * a + b) + (1 - V) / 2 * (c * c) =
      (a + V * b) ^ 2 + (1 - V ^ 2) * b ^ 2 + (1 - V) / 2 * c ^ 2 := by ring
  rw [e]
  have n1 : 0 ≤ (a + V * b) ^ 2 := sq_nonneg _
  have n2 : 0 ≤ (1 - V ^ 2) * b ^ 2 := mul_nonneg h1.le (sq_nonneg _)
  have n3 : 0 ≤ (1 - V) / 2 * c ^ 2 := mul_nonneg (by linarith) (sq_nonneg _)
  refine ⟨mul_nonneg hc.le (by linarith), fun h0 => ?_⟩
  have h0 := (mul_eq_zero.1 h0).resolve_left hc.ne'
  have z1 : (a + V * b) ^ 2 = 0 := by linarith
  have z2 : (1 - V ^ 2) * b ^ 2 = 0 := by linarith
  have z3 : (1 - V) / 2 * c ^ 2 = 0 := by linarith
  have hb : b = 0 := pow_eq_zero_iff (two_ne_zero) |>.1 ((mul_eq_zero.1 z2).resolve_left h1.ne')
  have hc' : c = 0 := pow_eq_zero_iff (two_ne_zero) |>.1 ((mul_eq_zero.1 z3).resolve_left (by
    have : 0 < (1 - V) / 2 := by linarith
    exact this.ne'))
  have ha : a + V * b = 0 := pow_eq_zero_iff (two_ne_zero) |>.1 z1
  exact ⟨by rw [hb, mul_zero, add_zero] at ha; exact ha, hb, hc'⟩

theorem plateForm_nonneg (hF : FlatQuads x elements) (hE : 0 < E) (hV : |V| < 1) (ht : 0 < t) (v : ℕ → ℕ → ℝ) :
    ∀ e ∈ elements, 0 ≤ plateForm x E V t v v e := by
  intro e he
  obtain ⟨p, q, r, s, X, rfl, -, -, hA⟩ := flat_coords hF he
  have hG := beamShear_pos hE (abs_lt.1 hV).1
  have p1 := (planeWork_nonneg (x := x) hE hV (p := p) (q := q) (r := r) (s := s) (fun m => v m 0) fun m => v m 1).1
  have p2 := (planeWork_nonneg (x := x) hE hV (p := p) (q := q) (r := r) (s := s) (fun m => v m 4) fun m => - v m 3).1
  have s0 := mul_self_nonneg (slope0 x p q r s (fun m => v m 2) + mean4 p q r s fun m => v m 4)
  have s1 := mul_self_nonneg (slope1 x p q r s (fun m => v m 2) - mean4 p q r s fun m => v m 3)
  simp only [plateForm]
  positivity

theorem plateForm_zero (hF : FlatQuads x elements) (hE : 0 < E) (hV : |V| < 1) (ht : 0 < t) {v : ℕ → ℕ → ℝ}
    (h : ∀ e ∈ elements, plateForm x E V t v v e = 0) : Unstrained x elements v := by
  intro p q r s he
  obtain ⟨p', q', r', s', X, heq, -, -, hA⟩ := flat_coords hF he
  simp only [List.cons.injEq, and_true] at heq
  obtain ⟨rfl, rfl, rfl, rfl⟩ := heq
  have hG := beamShear_pos hE (abs_lt.1 hV).1
  have p1 := planeWork_nonneg (x := x) hE hV (p := p) (q := q) (r := r) (s := s) (fun m => v m 0) fun m => v m 1
  have p2 := planeWork_nonneg (x := x) hE hV (p := p) (q := q) (r := r) (s := s) (fun m => v m 4) fun m => - v m 3
  have s0 := mul_self_nonneg (slope0 x p q r s (fun m => v m 2) + mean4 p q r s fun m => v m 4)
  have s1 := mul_self_nonneg (slope1 x p q r s (fun m => v m 2) - mean4 p q r s fun m => v m 3)
  have h' := h _ he
  simp only [plateForm] at h'
  have h' := (mul_eq_zero.1 h').resolve_left hA.ne'
  set a := planeWork x E V p q r s (fun m => v m 0) (fun m => v m 1) (fun m => v m 0) fun m => v m 1
  set b := planeWork x E V p q r s (fun m => v m 4) (fun m => - v m 3) (fun m => v m 4) fun m => - v m 3
  set c := slope0 x p q r s (fun m => v m 2) + mean4 p q r s fun m => v m 4
  set d := slope1 x p q r s (fun m => v m 2) - mean4 p q r s fun m => v m 3
  have tG : 0 < t * beamShear E V := mul_pos ht hG
  have n1 : 0 ≤ t * a := mul_nonneg ht.le p1.1
  have n2 : 0 ≤ t ^ 3 / 12 * b := mul_nonneg (by positivity) p2.1
  have n3 : 0 ≤ t * beamShear E V * (c * c) := mul_nonneg tG.le s0
  have n4 : 0 ≤ t * beamShear E V * (d * d) := mul_nonneg tG.le s1
  rw [mul_add (t * beamShear E V)] at h'
  have z1 : a = 0 := (mul_eq_zero.1 (by linarith : t * a = 0)).resolve_left ht.ne'
  have z2 : b = 0 := (mul_eq_zero.1 (by linarith : t ^ 3 / 12 * b = 0)).resolve_left (by positivity)
  have z3 : c = 0 := mul_self_eq_zero.1 ((mul_eq_zero.1 (by linarith : t * beamShear E V * (c * c) = 0)).resolve_left tG.ne')
  have z4 : d = 0 := mul_self_eq_zero.1 ((mul_eq_zero.1 (by linarith : t * beamShear E V * (d * d) = 0)).resolve_left tG.ne')
  obtain ⟨a1, a2, a3⟩ := p1.2 z1
  obtain ⟨b1, b2, b3⟩ := p2.2 z2
  exact ⟨a1, a2, a3, b1, b2, b3, z3, z4⟩

/-- A field that strains no element does no work with any other. -/
theorem unstrained_work (hF : FlatQuads x elements) {w : ℕ → ℕ → ℝ} (hw : Unstrained x elements w) (v : ℕ → ℕ → ℝ) :
    plateWork x elements E V t w v = 0 ∧ plateWork x elements E V t v w = 0 := by
  constructor <;> refine List.sum_eq_zero fun r hr => ?_ <;> obtain ⟨e, he, rfl⟩ := List.mem_map.1 hr <;>
    obtain ⟨p, q, r, s, X, rfl, -, -, -⟩ := flat_coords hF he <;>
    obtain ⟨a1, a2, a3, b1, b2, b3, z3, z4⟩ := hw p q r s he <;>
    simp only [plateForm, planeWork, a1, a2, a3, b1, b2, b3, z3, z4] <;> ring

/-- **C134**: the virtual work of a field on itself is nonnegative, and zero exactly on the fields that strain no
element. -/
theorem C134_energy (hF : FlatQuads x elements) (hE : 0 < E) (hV : |V| < 1) (ht : 0 < t) (v : ℕ → ℕ → ℝ) :
    0 ≤ plateWork x elements E V t v v ∧ (plateWork x elements E V t v v = 0 ↔ Unstrained x elements v) := by
  have hn := plateForm_nonneg hF hE hV ht v
  refine ⟨List.sum_nonneg fun r hr => by
    obtain ⟨e, he, rfl⟩ := List.mem_map.1 hr
    exact hn e he, fun h0 => ?_, fun h => (unstrained_work hF h v).1⟩
  refine plateForm_zero hF hE hV ht fun e he => le_antisymm ?_ (hn e he)
  rw [← h0]
  refine List.single_le_sum (fun r hr => ?_) _ (List.mem_map.2 ⟨e, he, rfl⟩)
  obtain ⟨e', he', rfl⟩ := List.mem_map.1 hr
  exact hn e' he'

/-- **C134**: whatever the given values, the equations have a solution exactly if the loads do no work on the fields that
vanish at the supports and strain no element; and two solutions differ by such a field. -/
theorem C134_solvable (hF : FlatQuads x elements) (hE : 0 < E) (hV : |V| < 1) (ht : 0 < t)
    (hq : ∀ p ∈ q, p.1.1 < x.length ∧ p.1.2 < 6) :
    ∃ calls, shellCalls x elements q E V t = some calls ∧
      (∀ u : ℕ → ℕ → ℝ,
        (∃ v : ℕ → ℕ → ℝ, (∀ p ∈ freeDofs (freeTable x.length 6) bc, residual calls v p.1 p.2 = 0) ∧
          ∀ n d, ¬ IsFree (freeTable x.length 6) bc (n, d) → v n d = u n d) ↔
        ∀ w : ℕ → ℕ → ℝ, (∀ n d, ¬ IsFree (freeTable x.length 6) bc (n, d) → w n d = 0) → Unstrained x elements w →
          (q.map fun p => p.2 * w p.1.1 p.1.2).sum = 0) ∧
      ∀ v v' : ℕ → ℕ → ℝ, (∀ p ∈ freeDofs (freeTable x.length 6) bc, residual calls v p.1 p.2 = 0) →
        (∀ n d, ¬ IsFree (freeTable x.length 6) bc (n, d) → v' n d = v n d) →
        ((∀ p ∈ freeDofs (freeTable x.length 6) bc, residual calls v' p.1 p.2 = 0) ↔ Unstrained x elements (v' - v)) := by
  have hV' : 1 - V ^ 2 ≠ 0 := by
    obtain ⟨v1, v2⟩ := abs_lt.1 hV
    have : 0 < 1 - V ^ 2 := by nlinarith
    exact this.ne'
  obtain ⟨calls, h1, h2, h3, h4, h5⟩ := shellCalls_spec (E := E) hF ht.ne' hV' hq
  have hf : ∀ c ∈ calls, ∀ p ∈ c.dofs, (dofNum (freeTable x.length 6) p.1 p.2.1).isSome :=
    fun c hc p hp => ((h2 c hc).1 p hp).1
  have hvan : ∀ (w : ℕ → ℕ → ℝ) (f : ℕ × ℕ → ℝ), (∀ n d, ¬ IsFree (freeTable x.length 6) bc (n, d) → w n d = 0) →
      ((freeDofs (freeTable x.length 6) bc).map fun p => w p.1 p.2 * f p).sum =
        ((allDofs (freeTable x.length 6)).map fun p => w p.1 p.2 * f p).sum := by
    intro w f hw
    by_cases hall : ∀ p ∉ freeDofs (freeTable x.length 6) bc, w p.1 p.2 * f p = 0
    · exact sum_freeDofs hall
    · exfalso
      apply hall
      intro p hp
      rw [hw p.1 p.2 fun hc => hp (List.mem_filter.2 ⟨mem_allDofs (by rw [dofNum_of_numOf hc.1]; rfl),
        decide_eq_true hc⟩), zero_mul]
  refine ⟨calls, h1, fun u => ⟨fun ⟨v, hv, _⟩ w hw hs => ?_, fun h => static_solvable hf u fun w hw h0 => ?_⟩,
    fun v v' hv hvv => ⟨fun hv' => ?_, fun hs p hp => ?_⟩⟩
  · rw [← h5]
    exact static_unsolvable hf hv hw (by rw [h4]; exact (unstrained_work hF hs v).1)
  · have hs := (C134_energy hF hE hV ht w).2.1 (by rw [← h4]; exact h0)
    rw [hvan w (fun p => residual calls u p.1 p.2) hw, residual_work hf, h4, h5, h w hw hs,
      (unstrained_work hF hs u).1, sub_zero]
  · have hz : ∀ n d, ¬ IsFree (freeTable x.length 6) bc (n, d) → (v' - v) n d = 0 := fun n d hn => by
      simp [hvv n d hn]
    refine (C134_energy hF hE hV ht _).2.1 ?_
    have e1 := residual_work hf v (v' - v)
    have e2 := residual_work hf v' (v' - v)
    rw [← hvan _ (fun p => residual calls _ p.1 p.2) hz, List.sum_eq_zero] at e1 e2
    · have e3 : energyForm calls (v' - v) (v' - v) = 0 := by
        rw [map_sub (energyForm calls (v' - v)), energyForm_apply, energyForm_apply]
        linarith
      rw [energyForm_apply, h4] at e3
      exact e3
    · intro r hr
      obtain ⟨p, hp, rfl⟩ := List.mem_map.1 hr
      rw [hv' p hp, mul_zero]
    · intro r hr
      obtain ⟨p, hp, rfl⟩ := List.mem_map.1 hr
      rw [hv p hp, mul_zero]
  · have := static_affine calls v (v' - v) p.1 p.2
    rw [energyForm_apply, h4, (unstrained_work hF hs _).2, hv p hp, add_sub_cancel] at this
    rw [this, zero_add]

/-- **C134**: and then the program computes a solution, unless no free dof is loaded. -/
theorem C134_solves (hF : FlatQuads x elements) (hE : 0 < E) (hV : |V| < 1) (ht : 0 < t)
    (hq : ∀ p ∈ q, p.1.1 < x.length ∧ p.1.2 < 6) (hbc : ∀ p ∈ bc, p.1.1 < x.length ∧ p.1.2 < 6)
    (hN : x.length * 6 ≤ 100000)
    (hw : ∀ w : ℕ → ℕ → ℝ, (∀ n d, ¬ IsFree (freeTable x.length 6) bc (n, d) → w n d = 0) → Unstrained x elements w →
      (q.map fun p => p.2 * w p.1.1 p.1.2).sum = 0)
    (hload : ∃ p ∈ freeDofs (freeTable x.length 6) bc,
      plateWork x elements E V t (unitField p.1 p.2) (given (zeroField x.length 6) (freeTable x.length 6) bc) ≠
        (q.map fun r => if r.1 = (p.1, p.2) then r.2 else 0).sum) :
    ∃ u, shellStatic x elements bc q E V t = some (u, true) := by
  have hV' : 1 - V ^ 2 ≠ 0 := by
    obtain ⟨v1, v2⟩ := abs_lt.1 hV
    have : 0 < 1 - V ^ 2 := by nlinarith
    exact this.ne'
  obtain ⟨calls, h1, h2, h3, h4, h5⟩ := shellCalls_spec (E := E) hF ht.ne' hV' hq
  obtain ⟨calls', h1', -, h3'⟩ := C134_equations (E := E) hF ht.ne' hV' hq
  obtain rfl := Option.some.inj (h1'.symm.trans h1)
  obtain ⟨calls', h1', h6, -⟩ := C134_solvable (bc := bc) hF hE hV ht hq
  obtain rfl := Option.some.inj (h1'.symm.trans h1)
  obtain ⟨u, hu⟩ := static_semi (u₀ := zeroField x.length 6) (bc := bc) useCG_findsSemi h2 (fun p hp => by
      obtain ⟨h1, h2⟩ := hbc p hp
      exact ⟨by rw [nodal_zeroField h1 h2]; rfl, by rw [dofNum_freeTable h1 h2]; rfl⟩)
    (fun p hp => by
      have hf : IsFree (freeTable x.length 6) bc (p.1, p.2) := of_decide_eq_true (List.mem_filter.1 hp).2
      obtain ⟨h1, h2, -⟩ := free_table.1 hf
      rw [nodal_zeroField h1 h2]; rfl) h3
    (fun v _ => by rw [h4]; exact (C134_energy hF hE hV ht v).1)
    ((h6 _).2 hw)
    (by
      obtain ⟨p, hp, hne⟩ := hload
      exact ⟨p, hp, by rw [h3']; exact sub_ne_zero.2 hne⟩)
    (le_trans free_table_length hN)
  exact ⟨u, by simp only [shellStatic, h1, Option.bind_eq_bind, Option.bind_some]; exact hu⟩

end

end Pansfem
