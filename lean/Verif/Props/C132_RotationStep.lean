/-
C132: what a step of the time dependent advection-diffusion program determines.
-/
import Verif.Props.C131_Rotation
import Mathlib.LinearAlgebra.FiniteDimensional.Lemmas

namespace Pansfem

open Matrix

section
variable {x : List (Vec ℝ)} {elements : List (List ℕ)} {bc : List ((ℕ × ℕ) × ℝ)} {k dt theta : ℝ}
  {vel : (Fin 2 → ℝ) → Fin 2 → ℝ}

/-! ### Enough diffusion -/

/-- The derivative along `w` is bounded by the gradient. -/
theorem slope_bound (a b c : ℕ) (w : Fin 2 → ℝ) (v : ℕ → ℝ) : slope x a b c w v ^ 2 ≤
    (w 0 ^ 2 + w 1 ^ 2) * (slope x a b c ![1, 0] v ^ 2 + slope x a b c ![0, 1] v ^ 2) := by
  have e : slope x a b c w v = w 0 * slope x a b c ![1, 0] v + w 1 * slope x a b c ![0, 1] v := by
    simp [slope]
    ring
  rw [e]
  nlinarith [sq_nonneg (w 0 * slope x a b c ![0, 1] v - w 1 * slope x a b c ![1, 0] v)]

/-- The form of a step of one triangle. -/
theorem step_triangle (hdt : 0 < dt) (hth : 0 < theta) (hk : 0 < k) {a b c : ℕ} (hp : 0 < triArea x a b c) {w : Fin 2 → ℝ}
    (hd : (supgTime x a b c w k - theta * dt) ^ 2 * (w 0 ^ 2 + w 1 ^ 2) < 4 * theta * k * dt) (v : ℕ → ℝ) :
    0 ≤ transportMassForm x w k v v [a, b, c] / dt + theta * transportForm x w k v v [a, b, c] ∧
    (transportMassForm x w k v v [a, b, c] / dt + theta * transportForm x w k v v [a, b, c] = 0 →
      v a = 0 ∧ v b = 0 ∧ v c = 0) := by
  obtain ⟨m, hm⟩ : ∃ m, m = triMean a b c v := ⟨_, rfl⟩
  obtain ⟨s, hs⟩ : ∃ s, s = slope x a b c w v := ⟨_, rfl⟩
  obtain ⟨g, hg⟩ : ∃ g, g = slope x a b c ![1, 0] v ^ 2 + slope x a b c ![0, 1] v ^ 2 := ⟨_, rfl⟩
  obtain ⟨τ, hτ⟩ : ∃ τ, τ = supgTime x a b c w k := ⟨_, rfl⟩
  obtain ⟨q, hq⟩ : ∃ q, q = w 0 ^ 2 + w 1 ^ 2 := ⟨_, rfl⟩
  have hb : s ^ 2 ≤ q * g := by rw [hs, hg, hq]; exact slope_bound a b c w v
  have hg0 : 0 ≤ g := by rw [hg]; positivity
  rw [← hτ, ← hq] at hd
  have e : transportMassForm x w k v v [a, b, c] / dt + theta * transportForm x w k v v [a, b, c] =
      triArea x a b c / 2 / dt * ((m + (τ + theta * dt) / 2 * s) ^ 2 +
        (theta * k * dt * g - (τ - theta * dt) ^ 2 / 4 * s ^ 2)) := by
    simp only [transportMassForm, transportForm, ← hτ, ← hm, ← hs, ← sq, ← hg]
    field_simp
    ring
  have h1 : (τ - theta * dt) ^ 2 / 4 * s ^ 2 ≤ (τ - theta * dt) ^ 2 / 4 * (q * g) :=
    mul_le_mul_of_nonneg_left hb (by positivity)
  have h2 : 0 ≤ (4 * theta * k * dt - (τ - theta * dt) ^ 2 * q) / 4 * g := mul_nonneg (by linarith) hg0
  have hc : 0 < triArea x a b c / 2 / dt := by positivity
  rw [e]
  constructor
  · refine mul_nonneg hc.le (add_nonneg (sq_nonneg _) ?_)
    nlinarith
  · intro h
    rcases mul_eq_zero.1 h with h | h
    · exact absurd h hc.ne'
    · have h3 : theta * k * dt * g - (τ - theta * dt) ^ 2 / 4 * s ^ 2 ≥ 0 := by nlinarith
      have h4 : (m + (τ + theta * dt) / 2 * s) ^ 2 = 0 := le_antisymm (by linarith) (sq_nonneg _)
      have h5 : (4 * theta * k * dt - (τ - theta * dt) ^ 2 * q) / 4 * g = 0 := le_antisymm (by nlinarith) h2
      have hg1 : g = 0 := by
        rcases mul_eq_zero.1 h5 with h6 | h6
        · linarith
        · exact h6
      have hs1 : s = 0 := by
        have : s ^ 2 ≤ 0 := by rw [hg1, mul_zero] at hb; exact hb
        exact pow_eq_zero_iff two_ne_zero |>.1 (le_antisymm this (sq_nonneg _))
      have hm1 : m = 0 := by
        have := pow_eq_zero_iff two_ne_zero |>.1 h4
        rw [hs1] at this
        simpa using this
      rw [hg1] at hg
      have hx : slope x a b c ![1, 0] v = 0 := pow_eq_zero_iff two_ne_zero |>.1
        (le_antisymm (by linarith [sq_nonneg (slope x a b c ![0, 1] v)]) (sq_nonneg _))
      have hy : slope x a b c ![0, 1] v = 0 := pow_eq_zero_iff two_ne_zero |>.1
        (le_antisymm (by linarith [sq_nonneg (slope x a b c ![1, 0] v)]) (sq_nonneg _))
      have hf := flat_slope hp hx hy
      rw [hm, triMean] at hm1
      obtain ⟨f1, f2⟩ := hf
      refine ⟨?_, ?_, ?_⟩ <;> linarith

/-- **C132**, with diffusion: if `(tau - theta dt)² |w|² < 4 theta k dt` in every triangle and every node belongs to a
triangle or has a given value, then from every field there is exactly one field that satisfies the equations of a step.
Missing: the program itself passes `k = 0`, see `C132_false`. -/
theorem C132_partial (hT : Triangles x elements) (hw : ∀ e ∈ elements, elementWind x vel e ≠ 0) (hk : 0 < k) (hdt : 0 < dt)
    (hth : 0 < theta) (hd : ∀ a b c, [a, b, c] ∈ elements →
      (supgTime x a b c (elementWind x vel [a, b, c]) k - theta * dt) ^ 2 *
        (elementWind x vel [a, b, c] 0 ^ 2 + elementWind x vel [a, b, c] 1 ^ 2) < 4 * theta * k * dt)
    (hn : ∀ m < x.length, (∃ e ∈ elements, m ∈ e) ∨ (m, 0) ∈ bc.map Prod.fst) :
    ∃ items, advectionItems vel k x elements = some items ∧
      ∀ u, ∃! v, ExactStep items dt theta (freeTable x.length 1) bc u v := by
  obtain ⟨items, h1, h2, -, h4, h5⟩ := advectionItems_spec (k := k) hT hw hk.le (u₀ := zeroField x.length 1)
    fun m hm => by rw [nodal_zeroField hm (by norm_num)]; rfl
  refine ⟨items, h1, C112_exact items dt theta _ _ bc h2 fun v hv hne => ?_⟩
  have e : energy (items.map TimeItem.mass) v v / dt + theta * energy (items.map TimeItem.stiff) v v =
      (elements.map fun e => transportMassForm x (elementWind x vel e) k (fun m => v m 0) (fun m => v m 0) e / dt +
        theta * transportForm x (elementWind x vel e) k (fun m => v m 0) (fun m => v m 0) e).sum := by
    rw [h4, h5, driftMass, drift, List.sum_map_add, list_sum_mul_left]
    congr 1
    simp only [div_eq_mul_inv, List.sum_map_mul_right]
  have hpos : ∀ e ∈ elements, 0 ≤ transportMassForm x (elementWind x vel e) k (fun m => v m 0) (fun m => v m 0) e / dt +
      theta * transportForm x (elementWind x vel e) k (fun m => v m 0) (fun m => v m 0) e := by
    intro e he
    obtain ⟨-, a, b, c, rfl, hp⟩ := hT e he
    exact (step_triangle hdt hth hk hp (hd a b c he) _).1
  rw [e]
  refine lt_of_le_of_ne (List.sum_nonneg fun r hr => ?_) fun h0 => ?_
  · obtain ⟨e, he, rfl⟩ := List.mem_map.1 hr
    exact hpos e he
  · have hz : ∀ e ∈ elements, ∀ m ∈ e, v m 0 = 0 := by
      intro e he m hm
      have h6 := le_antisymm (le_of_le_of_eq (List.single_le_sum (fun r hr => by
        obtain ⟨e, he, rfl⟩ := List.mem_map.1 hr
        exact hpos e he) _ (List.mem_map.2 ⟨e, he, rfl⟩)) h0.symm) (hpos e he)
      obtain ⟨-, a, b, c, rfl, hp⟩ := hT e he
      obtain ⟨ha, hb, hc⟩ := (step_triangle hdt hth hk hp (hd a b c he) _).2 h6
      simp at hm
      rcases hm with rfl | rfl | rfl <;> assumption
    obtain ⟨m, d, hmd⟩ := hne
    refine hmd ?_
    by_cases hf : IsFree (freeTable x.length 1) bc (m, d)
    · obtain ⟨f1, f2, f3⟩ := free_table.1 hf
      have hd0 : d = 0 := by omega
      subst hd0
      rcases hn m f1 with ⟨e, he, hm⟩ | hb
      · exact hz e he m hm
      · exact absurd hb f3
    · exact hv m d hf

/-! ### No diffusion -/

/-- The form of a step of one triangle is a product. -/
theorem step_product (v u : ℕ → ℝ) (w : Fin 2 → ℝ) (a b c : ℕ) :
    dt⁻¹ * transportMassForm x w 0 v u [a, b, c] + theta * transportForm x w 0 v u [a, b, c] =
      triArea x a b c / 2 * (triMean a b c v + supgTime x a b c w 0 * slope x a b c w v) *
        (dt⁻¹ * triMean a b c u + theta * slope x a b c w u) := by
  simp only [transportMassForm, transportForm]
  ring

/-- The point value `u/dt + theta w·∇u` at the centroid. -/
noncomputable def centreValue (x : List (Vec ℝ)) (vel : (Fin 2 → ℝ) → Fin 2 → ℝ) (dt theta : ℝ) :
    List ℕ → (ℕ → ℝ) →ₗ[ℝ] ℝ
  | [a, b, c] =>
    { toFun := fun u => dt⁻¹ * triMean a b c u + theta * slope x a b c (vel (triCentroid x a b c)) u
      map_add' := fun u v => by simp only [triMean, slope, Pi.add_apply]; ring
      map_smul' := fun r u => by simp only [triMean, slope, Pi.smul_apply, smul_eq_mul, RingHom.id_apply]; ring }
  | _ => 0

/-- The field with given values at the free nodes, zero elsewhere. -/
noncomputable def freeField (L : List (ℕ × ℕ)) : (Fin L.length → ℝ) →ₗ[ℝ] (ℕ → ℝ) where
  toFun c m := ∑ i, if L[i] = (m, 0) then c i else 0
  map_add' c d := by
    funext m
    simp only [Pi.add_apply, ← Finset.sum_add_distrib]
    refine Finset.sum_congr rfl fun i _ => ?_
    split_ifs <;> simp
  map_smul' r c := by
    funext m
    simp only [Pi.smul_apply, smul_eq_mul, RingHom.id_apply, Finset.mul_sum]
    refine Finset.sum_congr rfl fun i _ => ?_
    split_ifs <;> simp

/-- **C132**: without diffusion the matrix of a step has at most the rank of the number of elements.  If more nodes are
free than there are elements, a step with a solution has other solutions. -/
theorem C132_rank (hT : Triangles x elements) (hw : ∀ e ∈ elements, elementWind x vel e ≠ 0)
    (hmany : elements.length < (freeDofs (freeTable x.length 1) bc).length) :
    ∃ items, advectionItems vel 0 x elements = some items ∧ ∀ dt theta u v,
      ExactStep items dt theta (freeTable x.length 1) bc u v →
        ∃ v', v' ≠ v ∧ ExactStep items dt theta (freeTable x.length 1) bc u v' := by
  obtain ⟨items, h1, h2, -, h4, h5⟩ := advectionItems_spec (k := 0) hT hw le_rfl (u₀ := zeroField x.length 1)
    fun m hm => by rw [nodal_zeroField hm (by norm_num)]; rfl
  refine ⟨items, h1, fun dt theta u v hv => ?_⟩
  obtain ⟨L, hL⟩ : ∃ L, L = freeDofs (freeTable x.length 1) bc := ⟨_, rfl⟩
  rw [← hL] at hmany
  have hd0 : ∀ p ∈ L, p.2 = 0 := fun p hp => by
    rw [hL] at hp
    have := (free_table.1 (of_decide_eq_true (List.mem_filter.1 hp).2)).2.1
    omega
  have hnd : L.Nodup := by rw [hL]; exact (allDofs_nodup _).filter _
  obtain ⟨φ, hφ⟩ : ∃ φ : (Fin L.length → ℝ) →ₗ[ℝ] (Fin elements.length → ℝ),
      φ = (LinearMap.pi fun j => centreValue x vel dt theta elements[j]) ∘ₗ freeField L := ⟨_, rfl⟩
  have hker := LinearMap.ker_ne_bot_of_finrank_lt (f := φ) (by simpa using hmany)
  obtain ⟨c, hc, hne⟩ := (Submodule.ne_bot_iff _).1 hker
  obtain ⟨w, hwd⟩ : ∃ w : ℕ → ℕ → ℝ, w = fun m d => if d = 0 then freeField L c m else 0 := ⟨_, rfl⟩
  have hw0 : (fun m => w m 0) = freeField L c := by funext m; rw [hwd]; simp
  have hval : ∀ i : Fin L.length, freeField L c L[i].1 = c i := by
    intro i
    show ∑ j, (if L[j] = (L[i].1, 0) then c j else 0) = c i
    rw [Finset.sum_eq_single i]
    · have e : L[i] = (L[i].1, 0) := Prod.ext rfl (hd0 L[i] (List.getElem_mem i.2))
      exact if_pos e
    · intro j _ hj
      refine if_neg fun he => hj ?_
      have : L[j] = L[i] := he.trans (Prod.ext rfl (hd0 _ (List.getElem_mem i.2)).symm)
      exact Fin.ext ((List.Nodup.getElem_inj_iff hnd).1 this)
    · simp
  refine ⟨v + w, fun he => ?_, fun p hp => ?_, fun n d hn => ?_⟩
  · have hz : w = 0 := by simpa using he
    refine hne (funext fun i => ?_)
    rw [← hval i, ← hw0, hz]
    rfl
  · have hp0 : p.2 = 0 := hd0 p (hL ▸ hp)
    rw [timeResidual_affine, hv.1 p hp, zero_add]
    simp only [stepForm, LinearMap.add_apply, LinearMap.smul_apply, energyForm_apply, smul_eq_mul, h4, h5, hw0]
    rw [driftMass, drift, list_sum_mul_left, list_sum_mul_left, ← List.sum_map_add]
    refine List.sum_eq_zero fun r hr => ?_
    obtain ⟨e, he, rfl⟩ := List.mem_map.1 hr
    obtain ⟨j, hj⟩ := List.mem_iff_get.1 he
    have hcol : centreValue x vel dt theta e (freeField L c) = 0 := by
      have := congrFun (LinearMap.mem_ker.1 hc) j
      rw [hφ] at this
      rw [← hj]
      exact this
    obtain ⟨-, a, b, d, rfl, -⟩ := hT e he
    rw [step_product, show dt⁻¹ * triMean a b d (freeField L c) + theta * slope x a b d
      (elementWind x vel [a, b, d]) (freeField L c) = 0 from hcol, mul_zero]
  · have : w n d = 0 := by
      rw [hwd]
      dsimp only
      split_ifs with hd
      · subst hd
        show ∑ i, (if L[i] = (n, 0) then c i else 0) = 0
        refine Finset.sum_eq_zero fun i _ => if_neg fun he => hn ?_
        have : (n, 0) ∈ L := he ▸ List.getElem_mem i.2
        rw [hL] at this
        exact of_decide_eq_true (List.mem_filter.1 this).2
      · rfl
    rw [Pi.add_apply, Pi.add_apply, this, add_zero]
    exact hv.2 n d hn

end

/-! ### A triangle -/

/-- Three nodes. -/
def spinNodes : List (Vec ℝ) := [⟨[0, 0]⟩, ⟨[1, 0]⟩, ⟨[0, 1]⟩]

theorem spinNodes_triangles : Triangles spinNodes [[0, 1, 2]] := by
  intro e he
  simp at he
  subst he
  refine ⟨fun m hm => ?_, 0, 1, 2, rfl, ?_⟩
  · simp at hm
    rcases hm with rfl | rfl | rfl <;> simp [nodal, spinNodes, Vec.at?, Vec.size]
  · norm_num [triArea, coord, nodal, spinNodes, Vec.at?, Vec.size]

theorem spinNodes_spin : ∀ e ∈ [[0, 1, 2]], elementWind spinNodes spin e ≠ 0 := by
  intro e he
  simp at he
  subst he
  refine spin_ne.2 ?_
  norm_num [triCentroid, coord, nodal, spinNodes, Vec.at?, Vec.size]

/-- **C132** is false: with the velocity, diffusion and time parameters of the program a step from the zero field on one
triangle has several solutions. -/
theorem C132_false : ¬ ∀ (x : List (Vec ℝ)) (elements : List (List ℕ)) (bc : List ((ℕ × ℕ) × ℝ)), Triangles x elements →
    (∀ e ∈ elements, elementWind x spin e ≠ 0) → ∀ items, advectionItems spin 0 x elements = some items →
    ∀ u v v', ExactStep items (Real.pi / 50) (1 / 2) (freeTable x.length 1) bc u v →
      ExactStep items (Real.pi / 50) (1 / 2) (freeTable x.length 1) bc u v' → v = v' := by
  intro h
  obtain ⟨items, h1, h2⟩ := C132_rank (bc := []) spinNodes_triangles spinNodes_spin (by decide)
  obtain ⟨items', h3, -, h4⟩ := C131_equations (k := 0) spinNodes_triangles spinNodes_spin le_rfl
    (u₀ := zeroField 3 1) fun m hm => by
      rw [nodal_zeroField (by simpa [spinNodes] using hm) (by norm_num)]; rfl
  obtain rfl := Option.some.inj (h1.symm.trans h3)
  have h0 : ExactStep items (Real.pi / 50) (1 / 2) (freeTable spinNodes.length 1) [] 0 0 := by
    refine ⟨fun p hp => ?_, fun _ _ _ => rfl⟩
    have hp0 := (free_table.1 (of_decide_eq_true (List.mem_filter.1 hp).2)).2.1
    have hp0 : p.2 = 0 := by omega
    rw [hp0, h4]
    exact C131_constant 0 p.1
  obtain ⟨v, hne, hv⟩ := h2 _ _ _ _ h0
  exact hne (h _ _ _ spinNodes_triangles spinNodes_spin items h1 _ _ _ hv h0)

/-- `C132_partial`: a uniform wind with diffusion. -/
example : ∃ items, advectionItems (fun _ => ![1, 0]) 1 spinNodes [[0, 1, 2]] = some items ∧
    ∀ u, ∃! v, ExactStep items (1 / 6) (1 / 2) (freeTable spinNodes.length 1) [] u v := by
  refine C132_partial spinNodes_triangles (fun e he => ?_) one_pos (by norm_num) (by norm_num) (fun a b c h => ?_) ?_
  · simp at he
    subst he
    intro h
    have := congrFun h 0
    simp [elementWind] at this
  · simp at h
    obtain ⟨rfl, rfl, rfl⟩ := h
    norm_num [elementWind, supgTime, slopeSum, triArea, coord, nodal, spinNodes, Vec.at?, Vec.size]
  · intro m hm
    have hm : m < 3 := hm
    left
    refine ⟨[0, 1, 2], by simp, ?_⟩
    interval_cases m <;> simp

end Pansfem
