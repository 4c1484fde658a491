/-
Ground structures as trusses: bars, lengths and stiffness.
-/
import Verif.Lemmas.Truss
import Verif.Props.C56_GroundStructure

noncomputable section

namespace Pansfem

/-! ### Differences along bars -/

theorem alongBar_eq {x : List (Vec ℝ)} (hx : ∀ p ∈ x, p.size = 2) {a b : ℕ} (ha : a < x.length) (hb : b < x.length) :
    alongBar x [a, b] = some ⟨[coord x b 0 - coord x a 0, coord x b 1 - coord x a 1]⟩ := by
  have key : ∀ n (hn : n < x.length), x[n] = ⟨[coord x n 0, coord x n 1]⟩ := by
    intro n hn
    obtain ⟨l, hl⟩ : ∃ l, x[n] = ⟨l⟩ := ⟨_, rfl⟩
    have h2 : l.length = 2 := by
      have := hx _ (List.getElem_mem hn)
      rw [hl] at this
      exact this
    obtain ⟨p, q, rfl⟩ := List.length_eq_two.1 h2
    simp [coord, nodal, List.getElem?_eq_getElem hn, hl, Vec.at?, Vec.size]
  simp only [alongBar, List.getElem?_cons_zero, List.getElem?_cons_succ, Option.bind_eq_bind, Option.bind_some,
    List.getElem?_eq_getElem ha, List.getElem?_eq_getElem hb, key a ha, key b hb]
  simp [Vec.sub, Vec.size, List.range_succ]

theorem barLength_eq {x : List (Vec ℝ)} (hx : ∀ p ∈ x, p.size = 2) {elements : List (List ℕ)} (hB : Bars x elements)
    {e : List ℕ} (he : e ∈ elements) : barLength x e = some (barLen x e) := by
  obtain ⟨hc, a, b, rfl, -⟩ := hB e he
  have hlt : ∀ n ∈ [a, b], n < x.length := by
    intro n hn
    have := (hc n hn).1
    by_contra h
    simp [nodal, h] at this
  unfold barLength
  rw [alongBar_eq hx (hlt a (by simp)) (hlt b (by simp))]
  simp [Vec.norm, Vec.normSq, Vec.size, sumM, List.range_succ, barLen, barSpan]

/-- The new section of a bar. -/
theorem stressSection_eq {x u : List (Vec ℝ)} (hx : ∀ p ∈ x, p.size = 2) (hu : ∀ p ∈ u, p.size = 2)
    (hl : u.length = x.length) {elements : List (List ℕ)} (hB : Bars x elements) {e : List ℕ} (he : e ∈ elements)
    {E A st sc : ℝ} (hst : 0 < st) (hsc : 0 < sc) :
    stressSection x u E st sc A e = some (if 0 < axialForce E A x e (valOf u) then axialForce E A x e (valOf u) / st
      else -axialForce E A x e (valOf u) / sc) := by
  have hpos := barLen_pos hB he
  obtain ⟨hc, a, b, rfl, -⟩ := hB e he
  have hlt : ∀ n ∈ [a, b], n < x.length := by
    intro n hn
    have := (hc n hn).1
    by_contra h
    simp [nodal, h] at this
  have h1 := hlt a (by simp)
  have h2 := hlt b (by simp)
  have hn : (⟨[coord x b 0 - coord x a 0, coord x b 1 - coord x a 1]⟩ : Vec ℝ).norm = some (barLen x [a, b]) := by
    simp [Vec.norm, Vec.normSq, Vec.size, sumM, List.range_succ, barLen, barSpan]
  have hd : ((⟨[coord u b 0 - coord u a 0, coord u b 1 - coord u a 1]⟩ : Vec ℝ).smul (E * A)).bind
      (fun d => d.dot ⟨[coord x b 0 - coord x a 0, coord x b 1 - coord x a 1]⟩) =
      some (axialForce E A x [a, b] (valOf u) * barLen x [a, b] ^ 2) := by
    rw [vec_smul_eq, Option.bind_some, vec_dot_eq (L := 2) (by simp [Vec.size]) (by simp [Vec.size])]
    simp only [List.range_succ, List.range_zero, List.nil_append, List.cons_append, List.map_cons, List.map_nil,
      List.sum_cons, List.sum_nil, vec_at_nat, List.getElem?_cons_zero, List.getElem?_cons_succ, Option.getD_some,
      axialForce, elongation, barSpan, Option.some.injEq]
    field_simp
    simp only [valOf, coord]
    ring
  unfold stressSection
  simp only [alongBar_eq hx h1 h2, alongBar_eq hu (hl ▸ h1) (hl ▸ h2), Option.bind_eq_bind, Option.bind_some, hn]
  rw [Option.bind_eq_some_iff] at hd
  obtain ⟨d, d1, d2⟩ := hd
  simp only [d1, d2, Option.bind_some, div?, if_neg (pow_pos hpos 2).ne', mul_div_assoc,
    div_self (pow_pos hpos 2).ne', mul_one, if_neg hst.ne', if_neg hsc.ne']
  split_ifs <;> rfl

/-! ### The bars of a ground structure -/

/-- The nodes of a ground structure. -/
def groundNodes (m : GrandStructure ℝ) : List (ℝ × ℝ) :=
  grid (m.nx + 1) (m.ny + 1) fun i j => (m.x * ((i : ℝ) / (m.nx : ℝ)), m.y * ((j : ℝ) / (m.ny : ℝ)))

section
variable {m : GrandStructure ℝ} {elements : List (List ℕ)}

theorem ground_coord (m : GrandStructure ℝ) {i j : ℕ} (hi : i ≤ m.nx) (hj : j ≤ m.ny) :
    coord (asVectors (groundNodes m)) ((m.ny + 1) * i + j) 0 = m.x / m.nx * i ∧
      coord (asVectors (groundNodes m)) ((m.ny + 1) * i + j) 1 = m.y / m.ny * j := by
  obtain ⟨h1, h2⟩ := coord_asVectors (nodes := groundNodes m) (getElem?_grid _ (Nat.lt_succ_of_le hi) (Nat.lt_succ_of_le hj))
  rw [h1, h2]
  constructor <;> ring

theorem ground_mem (he : m.elements = some elements) (hx : 0 < m.nx) (hy : 0 < m.ny) (e : List ℕ) : e ∈ elements ↔
    ∃ i ≤ m.nx, ∃ j ≤ m.ny, ∃ k ≤ m.nx, ∃ l ≤ m.ny, (m.ny + 1) * k + l < (m.ny + 1) * i + j ∧
      (m.x / m.nx * (i - k)) ^ 2 + (m.y / m.ny * (j - l)) ^ 2 < m.lmax ^ 2 ∧
      e = [(m.ny + 1) * i + j, (m.ny + 1) * k + l] := by
  unfold GrandStructure.elements at he
  rw [if_neg (by omega)] at he
  obtain rfl := Option.some.inj he
  rw [mem_bars]
  refine exists_congr fun i => and_congr_right fun _ => exists_congr fun j => and_congr_right fun _ =>
    exists_congr fun k => and_congr_right fun _ => exists_congr fun l => and_congr_right fun _ => ?_
  rw [isBar_iff, dist2, and_assoc]
  refine and_congr_right fun _ => and_congr_left fun _ => ?_
  dsimp only
  rw [show m.x * ((i : ℝ) / m.nx) - m.x * ((k : ℝ) / m.nx) = m.x / m.nx * (i - k) by ring,
    show m.y * ((j : ℝ) / m.ny) - m.y * ((l : ℝ) / m.ny) = m.y / m.ny * (j - l) by ring]

theorem ground_bars (he : m.elements = some elements) (hx : 0 < m.nx) (hy : 0 < m.ny) (h1 : 0 < m.x) (h2 : 0 < m.y) :
    Bars (asVectors (groundNodes m)) elements := by
  intro e hm
  obtain ⟨i, hi, j, hj, k, hk, l, hl, hlt, -, rfl⟩ := (ground_mem he hx hy e).1 hm
  have hnx : (0 : ℝ) < m.nx := by exact_mod_cast hx
  have hny : (0 : ℝ) < m.ny := by exact_mod_cast hy
  refine ⟨?_, _, _, rfl, ?_⟩
  · intro n hn
    simp only [List.mem_cons, List.not_mem_nil, or_false] at hn
    rcases hn with rfl | rfl
    · have := asVectors_at (nodes := groundNodes m) (getElem?_grid _ (Nat.lt_succ_of_le hi) (Nat.lt_succ_of_le hj))
      simp [this.1, this.2]
    · have := asVectors_at (nodes := groundNodes m) (getElem?_grid _ (Nat.lt_succ_of_le hk) (Nat.lt_succ_of_le hl))
      simp [this.1, this.2]
  · rw [(ground_coord m hi hj).1, (ground_coord m hi hj).2, (ground_coord m hk hl).1, (ground_coord m hk hl).2]
    by_contra hc
    push Not at hc
    have e1 : i = k := by exact_mod_cast mul_left_cancel₀ (div_pos h1 hnx).ne' hc.1
    have e2 : j = l := by exact_mod_cast mul_left_cancel₀ (div_pos h2 hny).ne' hc.2
    subst e1 e2
    exact lt_irrefl _ hlt

/-- A ground structure whose limit exceeds the diagonal of a cell is stiff if two of its nodes are held. -/
theorem ground_stiff (he : m.elements = some elements) (hx : 0 < m.nx) (hy : 0 < m.ny) (h1 : 0 < m.x) (h2 : 0 < m.y)
    (hd : (m.x / m.nx) ^ 2 + (m.y / m.ny) ^ 2 < m.lmax ^ 2) {ufixed : List ((ℕ × ℕ) × ℝ)} {n n' : ℕ} (hne : n ≠ n')
    (hn : n < (groundNodes m).length) (hn' : n' < (groundNodes m).length)
    (hf : ∀ d < 2, (n, d) ∈ ufixed.map Prod.fst ∧ (n', d) ∈ ufixed.map Prod.fst) :
    Stiff (asVectors (groundNodes m)) elements ufixed := by
  intro v hv h0
  have hnx : (0 : ℝ) < m.nx := by exact_mod_cast hx
  have hny : (0 : ℝ) < m.ny := by exact_mod_cast hy
  have hB := ground_bars he hx hy h1 h2
  obtain ⟨h, hh⟩ : ∃ h, h = m.x / m.nx := ⟨_, rfl⟩
  obtain ⟨k, hk⟩ : ∃ k, k = m.y / m.ny := ⟨_, rfl⟩
  have hp : 0 < h := by rw [hh]; exact div_pos h1 hnx
  have kp : 0 < k := by rw [hk]; exact div_pos h2 hny
  rw [← hh, ← hk] at hd
  -- what a bar says
  have bar : ∀ i ≤ m.nx, ∀ j ≤ m.ny, ∀ a ≤ m.nx, ∀ b ≤ m.ny, (m.ny + 1) * a + b < (m.ny + 1) * i + j →
      (h * ((i : ℝ) - a)) ^ 2 + (k * ((j : ℝ) - b)) ^ 2 < m.lmax ^ 2 →
      h * ((a : ℝ) - i) * (v ((m.ny + 1) * a + b) 0 - v ((m.ny + 1) * i + j) 0) +
        k * ((b : ℝ) - j) * (v ((m.ny + 1) * a + b) 1 - v ((m.ny + 1) * i + j) 1) = 0 := by
    intro i hi j hj a ha b hb hlt hdist
    have hm : [(m.ny + 1) * i + j, (m.ny + 1) * a + b] ∈ elements :=
      (ground_mem he hx hy _).2 ⟨i, hi, j, hj, a, ha, b, hb, hlt, by rw [← hh, ← hk]; exact hdist, rfl⟩
    have := h0 _ hm
    unfold elongation at this
    have := (div_eq_zero_iff.1 this).resolve_right (barLen_pos hB hm).ne'
    simp only [barSpan, List.getElem?_cons_zero, List.getElem?_cons_succ, Option.getD_some, (ground_coord m hi hj).1,
      (ground_coord m hi hj).2, (ground_coord m ha hb).1, (ground_coord m ha hb).2, ← hh, ← hk] at this
    rw [← this]
    ring
  have horizontal : ∀ i ≤ m.nx, ∀ j ≤ m.ny, v ((m.ny + 1) * i + j) 0 = v ((m.ny + 1) * 0 + j) 0 := by
    intro i
    induction i with
    | zero => intros; rfl
    | succ i ih =>
      intro hi j hj
      rw [← ih (by omega) j hj]
      have := bar (i + 1) hi j hj i (by omega) j hj (by rw [Nat.mul_succ]; omega) (by
        push_cast
        nlinarith [sq_nonneg k])
      push_cast at this
      have : h * (v ((m.ny + 1) * (i + 1) + j) 0 - v ((m.ny + 1) * i + j) 0) = 0 := by linarith
      linarith [(mul_eq_zero.1 this).resolve_left hp.ne']
  have vertical : ∀ i ≤ m.nx, ∀ j ≤ m.ny, v ((m.ny + 1) * i + j) 1 = v ((m.ny + 1) * i + 0) 1 := by
    intro i hi j
    induction j with
    | zero => intros; rfl
    | succ j ih =>
      intro hj
      rw [← ih (by omega)]
      have := bar i hi (j + 1) hj i hi j (by omega) (by omega) (by
        push_cast
        nlinarith [sq_nonneg h])
      push_cast at this
      have : k * (v ((m.ny + 1) * i + (j + 1)) 1 - v ((m.ny + 1) * i + j) 1) = 0 := by linarith
      linarith [(mul_eq_zero.1 this).resolve_left kp.ne']
  obtain ⟨f, hfdef⟩ : ∃ f : ℕ → ℝ, f = fun j => v ((m.ny + 1) * 0 + j) 0 := ⟨_, rfl⟩
  obtain ⟨g, hgdef⟩ : ∃ g : ℕ → ℝ, g = fun i => v ((m.ny + 1) * i + 0) 1 := ⟨_, rfl⟩
  have hv0 : ∀ i ≤ m.nx, ∀ j ≤ m.ny, v ((m.ny + 1) * i + j) 0 = f j := by
    intro i hi j hj; rw [horizontal i hi j hj, hfdef]
  have hv1 : ∀ i ≤ m.nx, ∀ j ≤ m.ny, v ((m.ny + 1) * i + j) 1 = g i := by
    intro i hi j hj; rw [vertical i hi j hj, hgdef]
  have diagonal : ∀ i < m.nx, ∀ j < m.ny, h * (f (j + 1) - f j) + k * (g (i + 1) - g i) = 0 := by
    intro i hi j hj
    have := bar (i + 1) hi (j + 1) hj i hi.le j hj.le (by rw [Nat.mul_succ]; omega) (by
      push_cast
      nlinarith)
    rw [hv0 _ hi _ hj, hv0 _ hi.le _ hj.le, hv1 _ hi _ hj, hv1 _ hi.le _ hj.le] at this
    push_cast at this
    linarith
  obtain ⟨w, hw⟩ : ∃ w, g (0 + 1) - g 0 = h * w := ⟨(g (0 + 1) - g 0) / h, by field_simp⟩
  have fj : ∀ j ≤ m.ny, f j = f 0 - k * w * j := by
    intro j
    induction j with
    | zero => intro _; simp
    | succ j ih =>
      intro hj
      have := diagonal 0 hx j hj
      rw [hw] at this
      have : h * (f (j + 1) - f j + k * w) = 0 := by linarith
      have := (mul_eq_zero.1 this).resolve_left hp.ne'
      push_cast
      linarith [ih (by omega)]
  have gi : ∀ i ≤ m.nx, g i = g 0 + h * w * i := by
    intro i
    induction i with
    | zero => intro _; simp
    | succ i ih =>
      intro hi
      have := diagonal i hi 0 hy
      have h3 := fj (0 + 1) hy
      push_cast at h3
      rw [h3] at this
      have : k * (g (i + 1) - g i - h * w) = 0 := by linarith
      have := (mul_eq_zero.1 this).resolve_left kp.ne'
      push_cast
      linarith [ih (by omega)]
  have hlen : (groundNodes m).length = (m.nx + 1) * (m.ny + 1) := length_grid _ _ _
  rw [hlen] at hn hn'
  obtain ⟨i, hi, j, hj, rfl⟩ := exists_row hn
  obtain ⟨i', hi', j', hj', rfl⟩ := exists_row hn'
  have z0 : ∀ d < 2, v ((m.ny + 1) * i + j) d = 0 ∧ v ((m.ny + 1) * i' + j') d = 0 := fun d hd =>
    ⟨hv _ _ fun hc => hc.2.2 (hf d hd).1, hv _ _ fun hc => hc.2.2 (hf d hd).2⟩
  have a1 := (z0 0 (by norm_num)).1
  have a2 := (z0 0 (by norm_num)).2
  have a3 := (z0 1 (by norm_num)).1
  have a4 := (z0 1 (by norm_num)).2
  rw [hv0 _ (by omega) _ (by omega), fj _ (by omega)] at a1 a2
  rw [hv1 _ (by omega) _ (by omega), gi _ (by omega)] at a3 a4
  have w0 : w = 0 := by
    by_cases e1 : i = i'
    · have e2 : (j : ℝ) - j' ≠ 0 := by
        intro e2
        have : j = j' := by exact_mod_cast sub_eq_zero.1 e2
        exact hne (by rw [e1, this])
      have : k * w * ((j : ℝ) - j') = 0 := by linarith
      exact (mul_eq_zero.1 ((mul_eq_zero.1 this).resolve_right e2)).resolve_left kp.ne'
    · have e2 : (i : ℝ) - i' ≠ 0 := fun e2 => e1 (by exact_mod_cast sub_eq_zero.1 e2)
      have : h * w * ((i : ℝ) - i') = 0 := by linarith
      exact (mul_eq_zero.1 ((mul_eq_zero.1 this).resolve_right e2)).resolve_left hp.ne'
  have f0 : f 0 = 0 := by rw [w0] at a1; linarith
  have g0 : g 0 = 0 := by rw [w0] at a3; linarith
  funext n d
  by_cases hc : n < (asVectors (groundNodes m)).length ∧ d < 2 ∧ (n, d) ∉ ufixed.map Prod.fst
  · have hl : n < (m.nx + 1) * (m.ny + 1) := by
      have := hc.1
      rwa [asVectors, List.length_map, hlen] at this
    obtain ⟨i, hi, j, hj, rfl⟩ := exists_row hl
    have : d = 0 ∨ d = 1 := by omega
    rcases this with rfl | rfl
    · rw [hv0 _ (by omega) _ (by omega), fj _ (by omega), f0, w0]; simp
    · rw [hv1 _ (by omega) _ (by omega), gi _ (by omega), g0, w0]; simp
  · exact hv n d hc

end

end Pansfem
