/-
**C129**: whether the velocities of sample_stokes_dynamic.cpp are divergence free.

The program takes the continuity equation at the mean of two times, so what an exact step makes divergence free is the mean of the
old and the new velocity.  A divergence of the start, which the given values bring along, is never removed: it changes sign in every
step for `theta = 1/2`.
-/
import Verif.Props.C128_Determined

noncomputable section

open Matrix

namespace Pansfem

variable {m n : ℕ} {bc : List ((ℕ × ℕ) × ℝ)} {rho mu dt theta : ℝ}

/-- Exact steps of the Stokes program with the work `load` of the tractions. -/
def StokesChain (G : FlowMesh m n) (bc : List ((ℕ × ℕ) × ℝ)) (rho mu dt theta : ℝ) (load : (ℕ → ℕ → ℝ) → ℝ)
    (U : ℕ → ℕ → ℕ → ℝ) : Prop := ∀ k, FlowExact bc (G.stokes rho mu dt theta load) (U k) (U (k + 1))

/-- Tractions do no work on pressures. -/
theorem tractionWork_press (x : List (Vec ℝ)) (edges : List (List ℕ × List ℕ)) (f : (Fin 2 → ℝ) → Fin 2 → ℝ) (q : ℕ → ℕ → ℝ) :
    tractionWork x edges f (FlowMesh.pressPart q) = 0 := by
  have : ∀ (c : ℕ) (a : Fin 2), FlowMesh.pressPart q c a = 0 := fun c a => if_neg (by omega)
  unfold tractionWork
  refine List.sum_eq_zero fun y hy => ?_
  obtain ⟨e, -, rfl⟩ := List.mem_map.1 hy
  simp [this, interp]

/-- **C129**: the divergence after `k` exact steps, tested with a pressure `q`, is `(-(1 - theta)/theta)^k` times that of the start,
for any tractions. -/
theorem C129_divergence (G : FlowMesh m n) (edges : List (List ℕ × List ℕ)) (f : (Fin 2 → ℝ) → Fin 2 → ℝ) (ht : theta ≠ 0)
    {U : ℕ → ℕ → ℕ → ℝ} (hU : StokesChain G bc rho mu dt theta (tractionWork G.x edges f) U) {q : ℕ → ℕ → ℝ}
    (hq : Vanishing bc q) (k : ℕ) : G.expand q (U k) = (-((1 - theta) / theta)) ^ k * G.expand q (U 0) := by
  have hs : ∀ v, G.expand (FlowMesh.pressPart q) v = G.expand q v := fun v =>
    FlowMesh.integral_congr fun e _ g => by rw [FlowMesh.pres_pressPart]
  induction k with
  | zero => rw [pow_zero, one_mul]
  | succ k ih =>
    have h := (hU k).equation _ (FlowMesh.pressPart_vanishing hq)
    have hn : G.NoVel (FlowMesh.pressPart q) := FlowMesh.noVel_of fun _ d hd => if_neg (by omega)
    rw [FlowMesh.stokes_noVel hn, tractionWork_press, sub_zero, hs, hs] at h
    rw [pow_succ', mul_assoc, ← ih]
    field_simp
    linarith

/-- **C129**: with `theta = 1/2`, as in the sample, the divergence only changes its sign. -/
theorem C129_alternates (G : FlowMesh m n) (edges : List (List ℕ × List ℕ)) (f : (Fin 2 → ℝ) → Fin 2 → ℝ)
    {U : ℕ → ℕ → ℕ → ℝ} (hU : StokesChain G bc rho mu dt (1 / 2) (tractionWork G.x edges f) U) {q : ℕ → ℕ → ℝ}
    (hq : Vanishing bc q) (k : ℕ) : G.expand q (U k) = (-1) ^ k * G.expand q (U 0) := by
  rw [C129_divergence G edges f (by norm_num) hU hq k]
  norm_num

theorem triangle_start : ∀ a d, unitField 5 1 a d = (lastValue triangleGiven a d).getD 0 := fun a d => by
  unfold lastValue triangleGiven unitField
  by_cases h1 : (a, d) = (5, 1)
  · obtain ⟨rfl, rfl⟩ := Prod.mk.inj h1
    simp
  · rw [if_neg fun hc => h1 (Prod.ext hc.1 hc.2)]
    cases hf : (List.find? _ _ : Option ((ℕ × ℕ) × ℝ)) with
    | none => rfl
    | some r =>
      have hm := List.mem_reverse.1 (List.mem_of_find?_eq_some hf)
      have hp := List.find?_some hf
      simp only [decide_eq_true_eq] at hp
      simp only [List.mem_cons, List.not_mem_nil, or_false] at hm
      rcases hm with rfl | hm
      · exact absurd hp.symm h1
      · have : r.2 = 0 := by
          rcases hm with rfl | rfl | rfl | rfl | rfl | rfl | rfl | rfl | rfl | rfl | rfl | rfl | rfl | rfl | rfl <;> rfl
        simp [this]

/-- Exact steps on the triangle from any field. -/
theorem triangle_chain (rho mu dt : ℝ) (ht : theta ≠ 0) (u : ℕ → ℕ → ℝ) : ∃ U : ℕ → ℕ → ℕ → ℝ, U 0 = u ∧
    StokesChain flowTriangle triangleGiven rho mu dt theta (tractionWork flowTriangle.x [] fun _ _ => 0) U := by
  choose next hn using triangle_stokes (theta := theta) rho mu dt ht
  exact ⟨fun k => next^[k] u, rfl, fun k => by
    have := hn (next^[k] u)
    rw [← Function.iterate_succ_apply' next k u] at this
    exact this⟩

/-- **C129** fails: there is a mesh with given values and exact steps from the field with these values such that the velocities are
divergence free after no step at all. -/
theorem C129_divfree_false :
    ∃ (x : List (Vec ℝ)) (elements : List (List ℕ × List ℕ)) (bc : List ((ℕ × ℕ) × ℝ)) (U : ℕ → ℕ → ℕ → ℝ),
      (stokesMesh x elements).Positive ∧ (∀ a d, U 0 a d = (lastValue bc a d).getD 0) ∧
      StokesChain (stokesMesh x elements) bc 1 1 (1 / 100) (1 / 2) (tractionWork x [] fun _ _ => 0) U ∧
      ∀ k, ¬ (stokesMesh x elements).DivFree bc (U k) := by
  obtain ⟨U, h0, hU⟩ := triangle_chain (theta := 1 / 2) 1 1 (1 / 100) (by norm_num) (unitField 5 1)
  refine ⟨flowTriangle.x, flowTriangle.elements, triangleGiven, U, flowTriangle_positive, fun a d => ?_, hU, fun k hk => ?_⟩
  · rw [h0, triangle_start]
  · have hq : Vanishing triangleGiven (unitField 0 2) := unit_vanishing (by simp [triangleGiven])
    have h1 := C129_alternates flowTriangle [] (fun _ _ => 0) hU hq k
    have h2 : flowTriangle.expand (unitField 0 2) (U k) = 0 := hk _ hq
    rw [h2, h0, flowTriangle_expand.2] at h1
    have := pow_ne_zero k (show (-1 : ℝ) ≠ 0 by norm_num)
    have h3 := (mul_eq_zero.1 h1.symm).resolve_left this
    norm_num at h3

/-- **C129**, the part that holds: if the velocities are divergence free at the start they are after every exact step.  Missing: given
values that bring a divergence along. -/
theorem C129_divfree_partial (G : FlowMesh m n) (edges : List (List ℕ × List ℕ)) (f : (Fin 2 → ℝ) → Fin 2 → ℝ) (ht : theta ≠ 0)
    {U : ℕ → ℕ → ℕ → ℝ} (hU : StokesChain G bc rho mu dt theta (tractionWork G.x edges f) U) (h0 : G.DivFree bc (U 0)) (k : ℕ) :
    G.DivFree bc (U k) := fun q hq => by
  rw [C129_divergence G edges f ht hU hq k, h0 q hq, mul_zero]

/-- `C129_divergence` and `C129_alternates`: the steps on the triangle. -/
example : ∃ U : ℕ → ℕ → ℕ → ℝ, StokesChain flowTriangle triangleGiven 1 1 (1 / 100) (1 / 2)
    (tractionWork flowTriangle.x [] fun _ _ => 0) U ∧ ∀ k, flowTriangle.expand (unitField 0 2) (U k) = (-1) ^ k * (-1 / 3) := by
  obtain ⟨U, h0, hU⟩ := triangle_chain (theta := 1 / 2) 1 1 (1 / 100) (by norm_num) (unitField 5 1)
  refine ⟨U, hU, fun k => ?_⟩
  rw [C129_alternates flowTriangle [] (fun _ _ => 0) hU (unit_vanishing (by simp [triangleGiven])) k, h0, flowTriangle_expand.2]

/-- `C129_divfree_partial`: the same steps from a velocity that is divergence free. -/
example : ∃ U : ℕ → ℕ → ℕ → ℝ, U 0 = unitField 5 1 + (-2 : ℝ) • unitField 5 0 ∧ ∀ k, flowTriangle.DivFree triangleGiven (U k) := by
  obtain ⟨U, h0, hU⟩ := triangle_chain (theta := 1 / 2) 1 1 (1 / 100) (by norm_num)
    (unitField 5 1 + (-2 : ℝ) • unitField 5 0)
  refine ⟨U, h0, C129_divfree_partial flowTriangle [] (fun _ _ => 0) (by norm_num) hU fun q hq => ?_⟩
  rw [h0]
  obtain ⟨E1, E2⟩ := flowTriangle_expand
  rw [(flowTriangle_agree hq).expand_left, FlowMesh.expand_test]
  have h0 : ∀ v, flowTriangle.expand (unitField 5 0) v = 0 := fun v =>
    FlowMesh.expand_zero fun e _ g => by simp [FlowMesh.pres, interp, unitField]
  show _ * flowTriangle.expand _ _ + _ * flowTriangle.expand (unitField 0 2) (unitField 5 1 + (-2 : ℝ) • unitField 5 0) = 0
  rw [h0, FlowMesh.expand_add_right, FlowMesh.expand_smul_right, E1, E2]
  norm_num

end Pansfem
