/-
C147: how near the designs of OC come to the limit of the constraint when the interval starts at zero.
-/
import Verif.Props.C146_Endless

namespace Pansfem

noncomputable section

open Finset

section Object
variable {o : OC} {x df dg : List ℝ}

/-- The two multipliers with which the bisection ends when it starts at zero. -/
theorem bracket_zero {g : List ℝ → ℝ} {fuel : ℕ} {f g0 : ℝ} {r : List ℝ × OC} (h0 : o.lambdamin = 0)
    (h1 : 0 < o.lambdamax) (he : o.lambdaeps < 1) (h : ocUpdate o fuel x f df g0 dg (fun _ => g) = .done r) :
    ∃ a b, 0 < a ∧ a ≤ b ∧ b ≤ o.lambdamax ∧ b - a ≤ o.lambdaeps * (b + a) ∧
      (∃ t, ocTrial o x df dg a = some t ∧ 0 < g t) ∧
      (b = o.lambdamax ∨ ∃ t, ocTrial o x df dg b = some t ∧ g t ≤ 0) ∧
      (ocTrial o x df dg a = some r.1 ∨ ocTrial o x df dg b = some r.1) := by
  rw [ocUpdate] at h
  cases hl : ocLoop o x df dg (fun _ => g) fuel (ocStart o) with
  | undefined => simp [hl] at h
  | running => simp [hl] at h
  | done fin =>
    simp only [hl] at h
    injection h with h
    subst h
    have hstep : ∀ st st', (0 ≤ st.lambda0 ∧ st.lambda0 ≤ st.lambda1 ∧ st.lambda1 ≤ o.lambdamax ∧ 0 < st.lambda1 ∧
        (st.lambda0 = 0 ∨ ∃ t, ocTrial o x df dg st.lambda0 = some t ∧ 0 < g t) ∧
        (st.lambda1 = o.lambdamax ∨ ∃ t, ocTrial o x df dg st.lambda1 = some t ∧ g t ≤ 0)) →
        ocBody o x df dg (fun _ => g) st = some st' →
        (0 ≤ st'.lambda0 ∧ st'.lambda0 ≤ st'.lambda1 ∧ st'.lambda1 ≤ o.lambdamax ∧ 0 < st'.lambda1 ∧
        (st'.lambda0 = 0 ∨ ∃ t, ocTrial o x df dg st'.lambda0 = some t ∧ 0 < g t) ∧
        (st'.lambda1 = o.lambdamax ∨ ∃ t, ocTrial o x df dg st'.lambda1 = some t ∧ g t ≤ 0)) ∧
        (ocTrial o x df dg st'.lambda0 = some st'.xkp1 ∨ ocTrial o x df dg st'.lambda1 = some st'.xkp1) := by
      rintro st st' ⟨i1, i2, i3, i4, i5, i6⟩ hb
      obtain ⟨t, ht, hx, ⟨hg, e0, e1⟩ | ⟨hg, e0, e1⟩⟩ := ocBody_eq hb
      · rw [e0, e1, hx]
        exact ⟨⟨by linarith, by linarith, i3, i4, Or.inr ⟨t, ht, hg⟩, i6⟩, Or.inl ht⟩
      · rw [e0, e1, hx]
        exact ⟨⟨i1, by linarith, by linarith, by linarith, i5, Or.inr ⟨t, ht, hg⟩⟩, Or.inr ht⟩
    obtain ⟨q, hq, hle⟩ := ocLoop_exit hl
    obtain ⟨q0, hq0, ⟨hno, _⟩ | ⟨_, f', st', _, hb, hl'⟩⟩ := ocLoop_done hl
    · have : q0 = (o.lambdamax - o.lambdamin) / (o.lambdamax + o.lambdamin) := (div?_eq_some.1 hq0).2
      rw [this, h0, sub_zero, add_zero, div_self h1.ne'] at hno
      linarith
    · have hfin := ocLoop_invariant (fun st => (0 ≤ st.lambda0 ∧ st.lambda0 ≤ st.lambda1 ∧
        st.lambda1 ≤ o.lambdamax ∧ 0 < st.lambda1 ∧
        (st.lambda0 = 0 ∨ ∃ t, ocTrial o x df dg st.lambda0 = some t ∧ 0 < g t) ∧
        (st.lambda1 = o.lambdamax ∨ ∃ t, ocTrial o x df dg st.lambda1 = some t ∧ g t ≤ 0)) ∧
        (ocTrial o x df dg st.lambda0 = some st.xkp1 ∨ ocTrial o x df dg st.lambda1 = some st.xkp1))
        (fun st st' hP hb => hstep st st' hP.1 hb) hl'
        (hstep (ocStart o) st' ⟨h0.ge, h0.trans_le h1.le, le_rfl, h1, Or.inl h0, Or.inl rfl⟩ hb)
      obtain ⟨⟨i1, i2, i3, i4, i5, i6⟩, i7⟩ := hfin
      obtain ⟨hne, rfl⟩ := div?_eq_some.1 hq
      rw [div_le_iff₀ (by linarith)] at hle
      have hz : fin.lambda0 ≠ 0 := fun hz => by
        rw [hz] at hle
        nlinarith
      exact ⟨fin.lambda0, fin.lambda1, lt_of_le_of_ne i1 hz.symm, i2, i3, hle, i5.resolve_left hz, i6, i7⟩

theorem ocClamp_scale {move x y θ : ℝ} (hm : 0 ≤ move) (h0 : 0 ≤ x) (h1 : x ≤ 1) (hθ : 0 ≤ θ) (hθ1 : θ ≤ 1)
    : θ * ocClamp move x y ≤ ocClamp move x (θ * y) := by
  have b1 := ocClamp_bounds (y := y) hm h0 h1
  have b2 := ocClamp_bounds (y := θ * y) hm h0 h1
  have hlo : 0 ≤ max 0 ((1 - move) * x) := le_max_left _ _
  by_cases hhi : min 1 ((1 + move) * x) < θ * y
  · have h3 : ocClamp move x (θ * y) = min 1 ((1 + move) * x) := by
      unfold ocClamp
      rw [if_neg (not_lt.2 (by linarith [b1.1, b1.2])), if_pos hhi]
    rw [h3]
    exact (mul_le_of_le_one_left (hlo.trans b1.1) hθ1).trans b1.2
  · by_cases hl : y < max 0 ((1 - move) * x)
    · have h3 : ocClamp move x y = max 0 ((1 - move) * x) := by
        unfold ocClamp
        rw [if_pos hl]
      exact (mul_le_of_le_one_left (hlo.trans b1.1) hθ1).trans (h3.trans_le b2.1)
    · have h3 : ocClamp move x y ≤ y := by
        unfold ocClamp
        rw [if_neg hl]
        split_ifs with h4
        · exact h4.le
        · exact le_rfl
      have h4 : θ * y ≤ ocClamp move x (θ * y) := by
        unfold ocClamp
        split_ifs with h5 
        · exact h5.le
        · exact le_rfl
      exact (mul_le_mul_of_nonneg_left h3 hθ).trans h4

/-- A larger multiplier gives a design that is not larger, and smaller by no more than the power of the ratio. -/
theorem trial_ratio (hd : OCData o x df dg) {a b : ℝ} (ha : 0 < a) (hab : a ≤ b) {s t : List ℝ}
    (hs : ocTrial o x df dg a = some s) (ht : ocTrial o x df dg b = some t) :
    List.Forall₂ (fun u v => (a / b) ^ o.iota * u ≤ v ∧ v ≤ u) s t := by
  obtain ⟨l1, e1⟩ := ocTrial_entry hs
  obtain ⟨l2, e2⟩ := ocTrial_entry ht
  have hb : 0 < b := ha.trans_le hab
  refine List.forall₂_iff_get.2 ⟨by rw [l1, l2], fun i k1 k2 => ?_⟩
  obtain ⟨c, d, xi, si, p1, p2, p3, p4, p5⟩ := e1 i (by omega)
  obtain ⟨c', d', xi', ti, q1, q2, q3, q4, q5⟩ := e2 i (by omega)
  rw [p1, Option.some.injEq] at q1
  rw [p2, Option.some.injEq] at q2
  rw [p3, Option.some.injEq] at q3
  subst q1 q2 q3
  obtain ⟨_, p4⟩ := List.getElem?_eq_some_iff.1 p4
  obtain ⟨_, q4⟩ := List.getElem?_eq_some_iff.1 q4
  simp only [List.get_eq_getElem, p4, q4]
  have hc := hd.df c (List.mem_of_getElem? p1)
  have hdd := hd.dg d (List.mem_of_getElem? p2)
  have hx := hd.x xi (List.mem_of_getElem? p3)
  rw [ocEntry_value hd.iota hc hdd ha p5, ocEntry_value hd.iota hc hdd hb q5]
  have hr1 : a / b ≤ 1 := (div_le_one hb).2 hab
  have hr0 : 0 ≤ a / b := (div_pos ha hb).le
  have hθ0 : 0 ≤ (a / b) ^ o.iota := Real.rpow_nonneg hr0 _
  have hθ1 : (a / b) ^ o.iota ≤ 1 := Real.rpow_le_one hr0 hr1 hd.iota.le
  have hq0 : 0 ≤ -c / (d * a) := div_nonneg (by linarith) (mul_pos hdd ha).le
  have hy : 0 ≤ (-c / (d * a)) ^ o.iota * xi := mul_nonneg (Real.rpow_nonneg hq0 _) hx.1.le
  have heq : (-c / (d * b)) ^ o.iota * xi = (a / b) ^ o.iota * ((-c / (d * a)) ^ o.iota * xi) := by
    rw [← mul_assoc, ← Real.mul_rpow hr0 hq0]
    congr 2
    field_simp
  rw [heq]
  exact ⟨ocClamp_scale hd.move hx.1.le hx.2 hθ0 hθ1,
    ocClamp_mono hd.move hx.1.le hx.2 (mul_le_of_le_one_left hy hθ1)⟩

/-- **C147 (bracket)**: if `UpdateVariables` returns with an interval that starts at zero, there is a violating design `s` that
is nowhere smaller than the returned one and nowhere larger by more than the factor, and a design `t` nowhere larger than
the returned one and nowhere smaller by more than the factor, which satisfies the constraint or belongs to the largest
multiplier.  The factor is `((1 + eps) / (1 - eps)) ^ iota`. -/
theorem C147_bracket {g : List ℝ → ℝ} {fuel : ℕ} {f g0 : ℝ} {r : List ℝ × OC} (hd : OCData o x df dg)
    (hlen : x.length = o.n ∧ df.length = o.n ∧ dg.length = o.n) (h0 : o.lambdamin = 0)
    (h1 : 0 < o.lambdamax) (he0 : 0 ≤ o.lambdaeps) (he : o.lambdaeps < 1)
    (h : ocUpdate o fuel x f df g0 dg (fun _ => g) = .done r) :
    ∃ s t, 0 < g s ∧ (g t ≤ 0 ∨ ocTrial o x df dg o.lambdamax = some t) ∧
      List.Forall₂ (fun u v => ((1 - o.lambdaeps) / (1 + o.lambdaeps)) ^ o.iota * u ≤ v ∧ v ≤ u) s r.1 ∧
      List.Forall₂ (fun u v => ((1 - o.lambdaeps) / (1 + o.lambdaeps)) ^ o.iota * u ≤ v ∧ v ≤ u) r.1 t := by
  obtain ⟨a, b, ha, hab, hbm, hrel, ⟨s, hs, hgs⟩, hb, hr⟩ := bracket_zero h0 h1 he h
  have hbp : 0 < b := ha.trans_le hab
  have hok : TrialOk o x df dg := ⟨hd.iota.le, hlen, hd.df, hd.dg⟩
  obtain ⟨t, ht⟩ := ocTrial_defined hok hbp
  have hratio : (1 - o.lambdaeps) / (1 + o.lambdaeps) ≤ a / b := by
    rw [div_le_div_iff₀ (by linarith) hbp]
    linarith
  have hθ : ((1 - o.lambdaeps) / (1 + o.lambdaeps)) ^ o.iota ≤ (a / b) ^ o.iota :=
    Real.rpow_le_rpow (div_nonneg (by linarith) (by linarith)) hratio hd.iota.le
  have hθ1 : ((1 - o.lambdaeps) / (1 + o.lambdaeps)) ^ o.iota ≤ 1 :=
    hθ.trans (Real.rpow_le_one (div_pos ha hbp).le ((div_le_one hbp).2 hab) hd.iota.le)
  have hnn : ∀ {l : ℝ} {y : List ℝ}, ocTrial o x df dg l = some y → ∀ u ∈ y, 0 ≤ u := fun hy u hu => by
    obtain ⟨l1, l2⟩ := ocTrial_within hd.move (fun v hv => ⟨(hd.x v hv).1.le, (hd.x v hv).2⟩) hy
    obtain ⟨i, hi, rfl⟩ := List.getElem_of_mem hu
    obtain ⟨_, yi, _, e2, _, _, k, _⟩ := l2 i (l1 ▸ hi)
    obtain ⟨_, e2⟩ := List.getElem?_eq_some_iff.1 e2
    rw [e2]
    exact k
  have hself : ∀ {l : ℝ} {y : List ℝ}, ocTrial o x df dg l = some y →
      List.Forall₂ (fun u v => ((1 - o.lambdaeps) / (1 + o.lambdaeps)) ^ o.iota * u ≤ v ∧ v ≤ u) y y := fun hy =>
    List.forall₂_same.2 fun u hu => ⟨mul_le_of_le_one_left (hnn hy u hu) hθ1, le_rfl⟩
  have hst : List.Forall₂ (fun u v => ((1 - o.lambdaeps) / (1 + o.lambdaeps)) ^ o.iota * u ≤ v ∧ v ≤ u) s t := by
    have hk := trial_ratio hd ha hab hs ht
    refine List.forall₂_iff_get.2 ⟨hk.length_eq, fun i k1 k2 => ?_⟩
    obtain ⟨k3, k4⟩ := (List.forall₂_iff_get.1 hk).2 i k1 k2
    exact ⟨(mul_le_mul_of_nonneg_right hθ (hnn hs _ (List.getElem_mem k1))).trans k3, k4⟩
  have hgt : g t ≤ 0 ∨ ocTrial o x df dg o.lambdamax = some t := by
    rcases hb with rfl | ⟨t', ht', hg'⟩
    · exact Or.inr ht
    · rw [ht, Option.some.injEq] at ht'
      exact Or.inl (ht' ▸ hg')
  refine ⟨s, t, hgs, hgt, ?_⟩
  rcases hr with hr | hr
  · rw [hs, Option.some.injEq] at hr
    rw [← hr]
    exact ⟨hself hs, hst⟩
  · rw [ht, Option.some.injEq] at hr
    rw [← hr]
    exact ⟨hst, hself ht⟩

end Object

/-! ### The truss -/

section Truss
variable {P : TrussProgram}

theorem factor_bound : (0.999 : ℝ) ≤ ((1 - 1.0e-3) / (1 + 1.0e-3)) ^ (0.5 : ℝ) := by
  have h : (0.999 : ℝ) = (0.999 ^ 2) ^ (0.5 : ℝ) := by
    rw [show (0.5 : ℝ) = 1 / 2 by norm_num, ← Real.sqrt_eq_rpow, Real.sqrt_sq (by norm_num)]
  rw [h]
  exact Real.rpow_le_rpow (by norm_num) (by norm_num) (by norm_num)

/-- **C147 (weight)**: in every run of the size optimisation every design after the first one uses more than 99.9 per cent of the
limit of the weight. -/
theorem C147_weight (h : P.Ok) (fuel : ℕ) {i : ℕ} (hi : i + 1 < (runTruss P fuel).1.length) :
    0.999 * (P.weightlimit * ∑ k, P.len k) <
      ∑ k : Fin P.elements.length, (runTruss P fuel).1[i + 1].s[(k : ℕ)]?.getD 0 * P.len k := by
  obtain ⟨hrun, st, h0, h1, -⟩ := C126_run h fuel
  obtain ⟨v, hv⟩ := states_same h0 (N := (runTruss P fuel).1.length)
    (fun j hj => ⟨_, ocUpdate_object (h1 j hj)⟩) (i := i) (by omega)
  have hu := h1 i hi
  rw [hv] at hu
  obtain ⟨d1, d2, d3⟩ := hrun.design _ (List.getElem_mem (by omega : i < (runTruss P fuel).1.length))
  have hok := trussOC_ok d1 d3 v
  obtain ⟨s, t, hs, -, hsr, -⟩ := C147_bracket (o := trussOC P v) (g := fun y => (trussWeight P y).getD 0)
    ⟨d2, d3.dfsign, d3.dgsign, by norm_num [OC.mk'], by norm_num [OC.mk']⟩ hok.len rfl (by norm_num [OC.mk'])
    (by norm_num [OC.mk']) (by norm_num [OC.mk']) hu
  obtain ⟨l1, -, -⟩ := hrun.design _ (List.getElem_mem hi)
  have ls : s.length = P.elements.length := hsr.length_eq.trans l1
  have hpos := mul_pos h.limit (total_pos h)
  rw [trussWeight_eq h ls, Option.getD_some, sub_pos, one_lt_div hpos] at hs
  refine lt_of_lt_of_le (mul_lt_mul_of_pos_left hs (by norm_num)) ?_
  rw [mul_sum]
  refine sum_le_sum fun k _ => ?_
  rw [← mul_assoc]
  refine mul_le_mul_of_nonneg_right ?_ (Real.sqrt_nonneg _)
  have k1 : (k : ℕ) < s.length := by rw [ls]; exact k.2
  have k2 : (k : ℕ) < (runTruss P fuel).1[i + 1].s.length := by rw [l1]; exact k.2
  obtain ⟨k3, k4⟩ := (List.forall₂_iff_get.1 hsr).2 k k1 k2
  simp only [List.get_eq_getElem, OC.mk'] at k3 k4
  rw [List.getElem?_eq_getElem k1, List.getElem?_eq_getElem k2, Option.getD_some, Option.getD_some]
  refine le_trans ?_ k3
  have hnn : 0 ≤ s[(k : ℕ)] := by
    obtain ⟨_, b2, _⟩ := hrun.design _ (List.getElem_mem hi)
    exact (b2 _ (List.getElem_mem k2)).1.le.trans k4
  exact mul_le_mul_of_nonneg_right factor_bound hnn

/-- **C147 (end)**: with a limit of the weight under `0.575`, if in all passes every bar carries a force and no variable exceeds
`0.998`, the program ends, because the objective has settled or after 50 passes. -/
theorem C147_ends (h : P.Ok) (hA : P.A0 < P.A1) (hlim : P.weightlimit < 0.575)
    (hall : ∀ fuel, ∀ q ∈ (runTruss P fuel).1, (∀ k, P.stretch q.value.u k ≠ 0) ∧ ∀ a ∈ q.s, a ≤ 0.998) :
    ∃ N, ∀ fuel, N ≤ fuel → runTruss P fuel = runTruss P N ∧
      ((runTruss P fuel).2 = .optimised ∨ (runTruss P fuel).2 = .exhausted) := by
  refine C146_ends h hA fun fuel q hq => ⟨(hall fuel q hq).1, ?_⟩
  have hrun := (C126_run h fuel).1
  have ht := total_pos h
  obtain ⟨i, hi, rfl⟩ := List.getElem_of_mem hq
  obtain ⟨l1, l2, -⟩ := hrun.design _ hq
  cases i with
  | zero =>
    have h0 := hrun.start
    rw [List.head?_eq_getElem?, List.getElem?_eq_getElem hi, Option.map_some, Option.some.injEq] at h0
    rw [h0, TrussProgram.raised, mul_sum]
    refine sum_lt_sum (fun k _ => ?_) ?_
    · refine mul_le_mul_of_nonneg_right ?_ (Real.sqrt_nonneg _)
      rw [List.getElem?_replicate, if_pos k.2, Option.getD_some]
      refine le_min (by norm_num at hlim ⊢; linarith) (by norm_num at hlim ⊢; linarith)
    · obtain ⟨k, -, hk⟩ := exists_lt_of_sum_lt (s := univ) (f := fun _ : Fin P.elements.length => (0 : ℝ)) (g := P.len)
        (by simpa using ht)
      refine ⟨k, mem_univ _, mul_lt_mul_of_pos_right ?_ hk⟩
      rw [List.getElem?_replicate, if_pos k.2, Option.getD_some]
      refine lt_min (by norm_num at hlim ⊢; linarith) (by norm_num at hlim ⊢; linarith)
  | succ i =>
    have hw := C147_weight h fuel hi
    have hraise : 1.002 * ∑ k : Fin P.elements.length, (runTruss P fuel).1[i + 1].s[(k : ℕ)]?.getD 0 * P.len k ≤
        P.raised (runTruss P fuel).1[i + 1].s := by
      rw [TrussProgram.raised, mul_sum]
      refine sum_le_sum fun k _ => ?_
      rw [← mul_assoc]
      refine mul_le_mul_of_nonneg_right ?_ (Real.sqrt_nonneg _)
      have k2 : (k : ℕ) < (runTruss P fuel).1[i + 1].s.length := by rw [l1]; exact k.2
      rw [List.getElem?_eq_getElem k2, Option.getD_some]
      have b1 := (l2 _ (List.getElem_mem k2)).1
      have b2 := (hall fuel _ hq).2 _ (List.getElem_mem k2)
      refine le_min ?_ ?_
      · norm_num at b2 ⊢
        linarith
      · norm_num
        linarith
    refine lt_of_lt_of_le ?_ hraise
    have hpos := mul_pos h.limit ht
    norm_num at hw ⊢
    linarith

end Truss

/-! ### Examples: the bar that is pulled, with a limit of one half -/

theorem pulledBar_second : ∃ fuel, 2 ≤ (runTruss pulledBar fuel).1.length := by
  obtain ⟨e, he, hS⟩ := C126_evaluation pulledBar_ok (s := List.replicate pulledBar.elements.length 0.5)
    ⟨by simp, fun a ha => by rw [List.eq_of_mem_replicate ha]; norm_num⟩
  exact (C146_second_iff pulledBar_ok (by norm_num [pulledBar]) he (limitedBar_stretch (w := 0.5) hS)).2
    (by norm_num [pulledBar])

-- the second design uses more than 0.4995 of the full weight
example : ∃ fuel, ∃ h : 1 < (runTruss pulledBar fuel).1.length,
    (0.4995 : ℝ) < (runTruss pulledBar fuel).1[1].s[0]?.getD 0 := by
  obtain ⟨fuel, hf⟩ := pulledBar_second
  refine ⟨fuel, by omega, ?_⟩
  have hw := C147_weight pulledBar_ok fuel (i := 0) (by omega)
  have hlen : ∀ k, pulledBar.len k = 1 := fun k => by
    have : k = (0 : Fin 1) := Subsingleton.elim (α := Fin 1) k 0
    rw [this]
    exact pulledBar_len
  simp only [hlen, mul_one] at hw
  have h1 : ∑ k : Fin pulledBar.elements.length, (1 : ℝ) = 1 := Fin.sum_univ_one (fun _ : Fin 1 => (1 : ℝ))
  have h2 : ∑ k : Fin pulledBar.elements.length, (runTruss pulledBar fuel).1[0 + 1].s[(k : ℕ)]?.getD 0 =
      (runTruss pulledBar fuel).1[1].s[0]?.getD 0 :=
    Fin.sum_univ_one (fun k : Fin 1 => (runTruss pulledBar fuel).1[0 + 1].s[(k : ℕ)]?.getD 0)
  rw [h1, h2] at hw
  have h3 : pulledBar.weightlimit = 0.5 := rfl
  rw [h3] at hw
  norm_num at hw ⊢
  exact hw

/-- The equilibrium of the bar: its force is the load up to `1e-10`. -/
theorem pulledBar_force {s : List ℝ} {e : TrussEvaluation} (hS : e.Sound pulledBar s) :
    |1 - pulledBar.area s (0 : Fin 1) * pulledBar.stretch e.u (0 : Fin 1)| < 1 / 10 ^ 10 := by
  have hb := hS.balance.2
  have hfree : freeDofs (freeTable pulledBar.x.length 2) pulledBar.ufixed = [(1, 0)] := by
    simp [freeDofs, allDofs, IsFree, freeTable, pulledBar]
    decide
  have hn : ∀ v : ℕ → ℕ → ℝ, dofNorm [(1, 0)] v = |v 1 0| := fun v => by
    simp [dofNorm, Real.sqrt_sq_eq_abs]
  have hload : nodalLoad pulledBar.qfixed 1 0 = 1 := by simp [nodalLoad, pulledBar]
  have hf : forceSum pulledBar.x pulledBar.elements pulledBar.qfixed (fun i => axialForce pulledBar.E (pulledBar.area s i)
      pulledBar.x pulledBar.elements[i] (valOf e.u)) 1 0 =
      1 - pulledBar.area s (0 : Fin 1) * pulledBar.stretch e.u (0 : Fin 1) := by
    rw [forceSum, hload]
    have h1 := Fin.sum_univ_one (fun i : Fin 1 => forceOn pulledBar.x pulledBar.elements[i] (axialForce pulledBar.E
      (pulledBar.area s i) pulledBar.x pulledBar.elements[i] (valOf e.u)) 1 0)
    have h2 : forceOn pulledBar.x [0, 1] (axialForce 1 (pulledBar.area s (0 : Fin 1)) pulledBar.x [0, 1] (valOf e.u)) 1 0 =
        -(pulledBar.area s (0 : Fin 1) * pulledBar.stretch e.u (0 : Fin 1)) := by
      have h3 : pulledBar.stretch e.u (0 : Fin 1) = elongation pulledBar.x [0, 1] (valOf e.u) := rfl
      have h4 : barSpan pulledBar.x [0, 1] 0 = 1 := by norm_num [barSpan, coord, nodal, pulledBar, Vec.at?, Vec.size]
      rw [h3, forceOn, axialForce, pulledBar_len, h4]
      norm_num
    rw [show (∑ i : Fin pulledBar.elements.length, forceOn pulledBar.x pulledBar.elements[i] (axialForce pulledBar.E
      (pulledBar.area s i) pulledBar.x pulledBar.elements[i] (valOf e.u)) 1 0) = _ from h1.trans h2]
    ring
  rw [hfree, hn, hn, hf, hload] at hb
  simpa using hb

/-- The designs of the bar stay small. -/
theorem pulledBar_small (fuel i : ℕ) (hi : i < (runTruss pulledBar fuel).1.length) :
    ∀ a ∈ (runTruss pulledBar fuel).1[i].s, a ≤ 0.51 := by
  obtain ⟨hrun, st, h0, h1, -⟩ := C126_run pulledBar_ok fuel
  induction i with
  | zero =>
    intro a ha
    have hs := hrun.start
    rw [List.head?_eq_getElem?, List.getElem?_eq_getElem hi, Option.map_some, Option.some.injEq] at hs
    rw [hs] at ha
    rw [List.eq_of_mem_replicate ha]
    norm_num
  | succ i ih =>
    have ih := ih (by omega)
    obtain ⟨v, hv⟩ := states_same h0 (N := (runTruss pulledBar fuel).1.length)
      (fun j hj => ⟨_, ocUpdate_object (h1 j hj)⟩) (i := i) (by omega)
    have hu := h1 i hi
    rw [hv] at hu
    obtain ⟨d1, d2, d3⟩ := hrun.design _ (List.getElem_mem (by omega : i < (runTruss pulledBar fuel).1.length))
    obtain ⟨l1, l2, -⟩ := hrun.design _ (List.getElem_mem hi)
    have hok := trussOC_ok d1 d3 v
    have hd : OCData (trussOC pulledBar v) (runTruss pulledBar fuel).1[i].s (runTruss pulledBar fuel).1[i].value.dfds
        (runTruss pulledBar fuel).1[i].value.dgds :=
      ⟨d2, d3.dfsign, d3.dgsign, by norm_num [OC.mk'], by norm_num [OC.mk']⟩
    obtain ⟨s, t, -, ht, -, hrt⟩ := C147_bracket (o := trussOC pulledBar v) (g := fun y => (trussWeight pulledBar y).getD 0)
      hd hok.len rfl (by norm_num [OC.mk']) (by norm_num [OC.mk']) (by norm_num [OC.mk']) hu
    have n1 : pulledBar.elements.length = 1 := rfl
    obtain ⟨x, hx⟩ := List.length_eq_one_iff.1 (d1.trans n1)
    obtain ⟨y, hy⟩ := List.length_eq_one_iff.1 (l1.trans n1)
    obtain ⟨z, hz⟩ := List.length_eq_one_iff.1 (hrt.length_eq.symm.trans (l1.trans n1))
    rw [hx] at ih hd d2
    rw [hy] at hrt l2 ⊢
    rw [hz] at hrt ht
    have hx1 : x ≤ 0.51 := ih x (by simp)
    have hx0 : 0 < x := (d2 x (by simp)).1
    have hy0 : 0 < y := (l2 y (by simp)).1
    have hzy : 0.999 * y ≤ z := by
      have := (List.forall₂_cons.1 hrt).1.1
      exact (mul_le_mul_of_nonneg_right factor_bound hy0.le).trans this
    have hlen : ∀ k, pulledBar.len k = 1 := fun k => by
      have : k = (0 : Fin 1) := Subsingleton.elim (α := Fin 1) k 0
      rw [this]
      exact pulledBar_len
    have hsum : ∑ k : Fin pulledBar.elements.length, (1 : ℝ) = 1 := Fin.sum_univ_one (fun _ : Fin 1 => (1 : ℝ))
    have hz' : z ≤ 0.5 ∨ z ≤ 0.85 * x := by
      rcases ht with ht | ht
      · left
        rw [trussWeight_eq pulledBar_ok rfl, Option.getD_some] at ht
        simp only [hlen, mul_one, hsum] at ht
        rw [show ∑ k : Fin pulledBar.elements.length, ([z] : List ℝ)[(k : ℕ)]?.getD 0 = z from
          Fin.sum_univ_one (fun k : Fin 1 => ([z] : List ℝ)[(k : ℕ)]?.getD 0), show pulledBar.weightlimit = 0.5 from rfl] at ht
        norm_num at ht ⊢
        linarith
      · right
        obtain ⟨-, hen⟩ := ocTrial_entry ht
        obtain ⟨c, d, xi, ti, p1, p2, p3, p4, p5⟩ := hen 0 (by show 0 < 1; norm_num)
        have e3 : x = xi := by simpa [hx] using p3
        have e4 : z = ti := by simpa using p4
        subst e3 e4
        have hforce := pulledBar_force d3
        set σ := pulledBar.stretch (runTruss pulledBar fuel).1[i].value.u (0 : Fin 1) with hσ
        have hc : c = -σ ^ 2 := by
          rw [d3.dcompliance, List.getElem?_ofFn, dif_pos (by show 0 < 1; norm_num), Option.some.injEq] at p1
          rw [← p1, hlen]
          show -((1 : ℝ) * ((2 - 1) * (1 / 1 * σ ^ 2))) = _
          ring
        have hdd : d = 2 := by
          rw [d3.dweight, List.getElem?_ofFn, dif_pos (by show 0 < 1; norm_num), Option.some.injEq] at p2
          simp only [hlen, hsum] at p2
          rw [← p2, show pulledBar.weightlimit = 0.5 from rfl]
          norm_num
        have harea : pulledBar.area (runTruss pulledBar fuel).1[i].s (0 : Fin 1) = 1 + x := by
          show (1 : ℝ) + (2 - 1) * (runTruss pulledBar fuel).1[i].s[0]?.getD 0 = 1 + x
          rw [hx]
          norm_num
        rw [harea, abs_lt] at hforce
        have hσ1 : σ ^ 2 ≤ 4 := by
          have h3 : -2 ≤ σ := by
            by_contra hlt
            push Not at hlt
            have := hforce.2
            norm_num at this
            nlinarith
          have h4 : σ ≤ 2 := by
            by_contra hlt
            push Not at hlt
            have := hforce.1
            norm_num at this
            nlinarith
          nlinarith
        have hval := ocEntry_value (by norm_num [OC.mk']) (by rw [hc]; nlinarith [sq_nonneg σ]) (by rw [hdd]; norm_num)
          (by norm_num [OC.mk']) p5
        have hq : (-c / (d * (trussOC pulledBar v).lambdamax)) ^ (trussOC pulledBar v).iota ≤ 0.05 := by
          have h5 : (0.05 : ℝ) = (0.05 ^ 2) ^ (0.5 : ℝ) := by
            rw [show (0.5 : ℝ) = 1 / 2 by norm_num, ← Real.sqrt_eq_rpow, Real.sqrt_sq (by norm_num)]
          rw [h5, hc, hdd]
          refine Real.rpow_le_rpow ?_ ?_ (by norm_num [OC.mk'])
          · have := sq_nonneg σ
            rw [neg_neg]
            show 0 ≤ σ ^ 2 / (2 * 1.0e3)
            positivity
          · rw [neg_neg]
            show σ ^ 2 / (2 * 1.0e3) ≤ 0.05 ^ 2
            norm_num
            linarith
        rw [hval]
        have hlow : max 0 ((1 - 0.15) * x) = 0.85 * x := by
          rw [max_eq_right (by norm_num; linarith)]
          norm_num
        show ocClamp 0.15 x _ ≤ _
        unfold ocClamp
        rw [hlow, if_pos]
        refine lt_of_le_of_lt (mul_le_mul_of_nonneg_right hq hx0.le) ?_
        norm_num
        linarith
    intro a ha
    rw [List.mem_singleton.1 ha]
    rcases hz' with h | h <;> norm_num at h hzy hx1 ⊢ <;> linarith

-- the program ends
example : ∃ N, ∀ fuel, N ≤ fuel → runTruss pulledBar fuel = runTruss pulledBar N ∧
    ((runTruss pulledBar fuel).2 = .optimised ∨ (runTruss pulledBar fuel).2 = .exhausted) :=
  C147_ends pulledBar_ok (by norm_num [pulledBar]) (by norm_num [pulledBar]) fun fuel q hq =>
    ⟨limitedBar_stretch (w := 0.5) ((C126_run pulledBar_ok fuel).1.design q hq).2.2, fun a ha => by
      obtain ⟨i, hi, rfl⟩ := List.getElem_of_mem hq
      have := pulledBar_small fuel i hi a ha
      norm_num at this ⊢
      linarith⟩

end

end Pansfem
