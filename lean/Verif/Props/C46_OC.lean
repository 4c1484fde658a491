/-
C46 (move limits), C47 (termination), C77 (bracket of the multiplier), C78 (convergence test).
-/
import Verif.Model.OC
import Verif.Lemmas.Dense
import Verif.Lemmas.Element
import Mathlib.Tactic.Linarith
import Mathlib.Tactic.FieldSimp
import Mathlib.Tactic.Positivity
import Mathlib.Algebra.Order.Archimedean.Basic

namespace Pansfem

/-! ### The loop -/

section Loop
variable {o : OC} {x dfdx dgdx : List ℝ} {g : ℕ → List ℝ → ℝ}

theorem ocLoop_eq (o : OC) (x dfdx dgdx : List ℝ) (g : ℕ → List ℝ → ℝ) (fuel : ℕ) (st : OCState) :
    ocLoop o x dfdx dgdx g fuel st =
      match div? (st.lambda1 - st.lambda0) (st.lambda1 + st.lambda0) with
      | none => .undefined
      | some q =>
        if o.lambdaeps < q then
          match fuel with
          | 0 => .running
          | fuel + 1 =>
            match ocBody o x dfdx dgdx g st with
            | none => .undefined
            | some st' => ocLoop o x dfdx dgdx g fuel st'
        else .done st := by
  conv_lhs => unfold ocLoop
  cases fuel <;> rfl

/-- What a finished loop has gone through. -/
theorem ocLoop_done {fuel : ℕ} {st fin : OCState} (h : ocLoop o x dfdx dgdx g fuel st = .done fin) :
    ∃ q, div? (st.lambda1 - st.lambda0) (st.lambda1 + st.lambda0) = some q ∧
      ((q ≤ o.lambdaeps ∧ fin = st) ∨ (o.lambdaeps < q ∧ ∃ fuel' st', fuel = fuel' + 1 ∧
        ocBody o x dfdx dgdx g st = some st' ∧ ocLoop o x dfdx dgdx g fuel' st' = .done fin)) := by
  rw [ocLoop_eq] at h
  cases hq : div? (st.lambda1 - st.lambda0) (st.lambda1 + st.lambda0) with
  | none => simp [hq] at h
  | some q =>
    simp only [hq] at h
    refine ⟨q, rfl, ?_⟩
    by_cases hc : o.lambdaeps < q
    · rw [if_pos hc] at h
      cases fuel with
      | zero => simp at h
      | succ fuel =>
        cases hb : ocBody o x dfdx dgdx g st with
        | none => simp [hb] at h
        | some st' =>
          simp only [hb] at h
          exact Or.inr ⟨hc, fuel, st', rfl, rfl, h⟩
    · rw [if_neg hc] at h
      injection h with h
      exact Or.inl ⟨not_lt.1 hc, h.symm⟩

theorem ocLoop_invariant (P : OCState → Prop)
    (hstep : ∀ st st', P st → ocBody o x dfdx dgdx g st = some st' → P st') {fuel : ℕ} {st fin : OCState}
    (h : ocLoop o x dfdx dgdx g fuel st = .done fin) (hst : P st) : P fin := by
  induction fuel generalizing st with
  | zero =>
    obtain ⟨q, _, ⟨_, rfl⟩ | ⟨_, f, st', hf, _⟩⟩ := ocLoop_done h
    · exact hst
    · omega
  | succ fuel ih =>
    obtain ⟨q, _, ⟨_, rfl⟩ | ⟨_, f, st', hf, hb, hl⟩⟩ := ocLoop_done h
    · exact hst
    · obtain rfl : fuel = f := by omega
      exact ih hl (hstep st st' hst hb)

theorem ocLoop_exit {fuel : ℕ} {st fin : OCState} (h : ocLoop o x dfdx dgdx g fuel st = .done fin) :
    ∃ q, div? (fin.lambda1 - fin.lambda0) (fin.lambda1 + fin.lambda0) = some q ∧ q ≤ o.lambdaeps := by
  induction fuel generalizing st with
  | zero =>
    obtain ⟨q, hq, ⟨h1, rfl⟩ | ⟨_, f, st', hf, _⟩⟩ := ocLoop_done h
    · exact ⟨q, hq, h1⟩
    · omega
  | succ fuel ih =>
    obtain ⟨q, hq, ⟨h1, rfl⟩ | ⟨_, f, st', hf, hb, hl⟩⟩ := ocLoop_done h
    · exact ⟨q, hq, h1⟩
    · obtain rfl : fuel = f := by omega
      exact ih hl

theorem ocBody_eq {st st' : OCState} (h : ocBody o x dfdx dgdx g st = some st') :
    ∃ t, ocTrial o x dfdx dgdx ((st.lambda0 + st.lambda1) / 2) = some t ∧ st'.xkp1 = t ∧
      ((0 < g st.calls t ∧ st'.lambda0 = (st.lambda0 + st.lambda1) / 2 ∧ st'.lambda1 = st.lambda1) ∨
       (g st.calls t ≤ 0 ∧ st'.lambda0 = st.lambda0 ∧ st'.lambda1 = (st.lambda0 + st.lambda1) / 2)) := by
  have e : (0.5 : ℝ) * (st.lambda1 + st.lambda0) = (st.lambda0 + st.lambda1) / 2 := by ring
  rw [ocBody, e] at h
  cases ht : ocTrial o x dfdx dgdx ((st.lambda0 + st.lambda1) / 2) with
  | none => simp [ht] at h
  | some t =>
    simp only [ht, Option.bind_eq_bind, Option.bind_some, Option.pure_def, Option.some.injEq] at h
    refine ⟨t, rfl, ?_⟩
    by_cases hg : 0 < g st.calls t
    · rw [if_pos hg] at h
      subst h
      exact ⟨rfl, Or.inl ⟨hg, rfl, rfl⟩⟩
    · rw [if_neg hg] at h
      subst h
      exact ⟨rfl, Or.inr ⟨not_lt.1 hg, rfl, rfl⟩⟩

theorem mapM_forall {α β : Type} {l : List α} {f : α → Option β} {r : List β} (h : l.mapM f = some r) :
    List.Forall₂ (fun a b => f a = some b) l r := by
  induction l generalizing r with
  | nil =>
    simp only [List.mapM_nil, Option.pure_def, Option.some.injEq] at h
    subst h; exact .nil
  | cons a l ih =>
    rw [List.mapM_cons] at h
    cases ha : f a with
    | none => simp [ha] at h
    | some b =>
      cases hl : l.mapM f with
      | none => simp [ha, hl] at h
      | some bs =>
        simp only [ha, hl, Option.bind_eq_bind, Option.bind_some, Option.pure_def, Option.some.injEq] at h
        subst h
        exact .cons ha (ih hl)

theorem ocTrial_entry {lambda : ℝ} {t : List ℝ} (h : ocTrial o x dfdx dgdx lambda = some t) :
    t.length = o.n ∧ ∀ i < o.n, ∃ df dg xi ti, dfdx[i]? = some df ∧ dgdx[i]? = some dg ∧ x[i]? = some xi ∧
      t[i]? = some ti ∧ ocEntry o.iota o.movelimit lambda df dg xi = some ti := by
  have hf := mapM_forall h
  have hlen : t.length = o.n := by simpa using hf.length_eq.symm
  refine ⟨hlen, fun i hi => ?_⟩
  have he := (List.forall₂_iff_get.1 hf).2 i (by simpa using hi) (by omega)
  simp only [List.get_eq_getElem, List.getElem_range] at he
  cases h1 : dfdx[i]? with
  | none => simp [h1] at he
  | some df =>
    cases h2 : dgdx[i]? with
    | none => simp [h1, h2] at he
    | some dg =>
      cases h3 : x[i]? with
      | none => simp [h1, h2, h3] at he
      | some xi =>
        simp only [h1, h2, h3, Option.bind_eq_bind, Option.bind_some] at he
        exact ⟨df, dg, xi, _, rfl, rfl, rfl, List.getElem?_eq_getElem (by omega), he⟩

end Loop

/-! ### C46 -/

theorem ocClamp_bounds {move x y : ℝ} (hm : 0 ≤ move) (h0 : 0 ≤ x) (h1 : x ≤ 1) :
    max 0 ((1 - move) * x) ≤ ocClamp move x y ∧ ocClamp move x y ≤ min 1 ((1 + move) * x) := by
  have hle : max 0 ((1 - move) * x) ≤ min 1 ((1 + move) * x) := by
    refine max_le (le_min zero_le_one (by positivity)) (le_min ?_ ?_) <;> nlinarith
  unfold ocClamp
  split_ifs with ha hb
  · exact ⟨le_rfl, hle⟩
  · exact ⟨hle, le_rfl⟩
  · exact ⟨not_lt.1 ha, not_lt.1 hb⟩

/-- Every entry of `y` lies within the move limits of the one of `x` and within [0,1]. -/
def WithinMove (n : ℕ) (move : ℝ) (x y : List ℝ) : Prop :=
  y.length = n ∧ ∀ i < n, ∃ xi yi, x[i]? = some xi ∧ y[i]? = some yi ∧
    (1 - move) * xi ≤ yi ∧ yi ≤ (1 + move) * xi ∧ 0 ≤ yi ∧ yi ≤ 1

theorem ocTrial_within {o : OC} {x dfdx dgdx t : List ℝ} {lambda : ℝ} (hm : 0 ≤ o.movelimit)
    (hx : ∀ v ∈ x, 0 ≤ v ∧ v ≤ 1) (h : ocTrial o x dfdx dgdx lambda = some t) :
    WithinMove o.n o.movelimit x t := by
  obtain ⟨h1, h2⟩ := ocTrial_entry h
  refine ⟨h1, fun i hi => ?_⟩
  obtain ⟨df, dg, xi, ti, _, _, e3, e4, e5⟩ := h2 i hi
  refine ⟨xi, ti, e3, e4, ?_⟩
  have hxi := hx xi (List.mem_of_getElem? e3)
  rw [ocEntry] at e5
  cases hd : div? (-df) (dg * lambda) with
  | none => simp [hd] at e5
  | some q =>
    cases hp : pow? q o.iota with
    | none => simp [hd, hp] at e5
    | some y =>
      simp only [hd, hp, Option.bind_eq_bind, Option.bind_some, Option.pure_def, Option.some.injEq] at e5
      subst e5
      obtain ⟨b1, b2⟩ := ocClamp_bounds (y := y * xi) hm hxi.1 hxi.2
      exact ⟨(le_max_right _ _).trans b1, b2.trans (min_le_right _ _), (le_max_left _ _).trans b1,
        b2.trans (min_le_left _ _)⟩

/-- **C46** where the bisection is entered and the variables are within [0,1]: the new variables lie
within the move limits of the old ones and within [0,1].  Missing: the limits `xmin`, `xmax`, which the
code ignores (`C46_box_false`), and an interval so short that the loop is skipped (`C46_skip`,
`C46_move_false`). -/
theorem C46_move_partial {o : OC} {fuel : ℕ} {x dfdx dgdx : List ℝ} {f g0 : ℝ} {g : ℕ → List ℝ → ℝ}
    {r : List ℝ × OC} (hm : 0 ≤ o.movelimit) (hx : ∀ v ∈ x, 0 ≤ v ∧ v ≤ 1)
    (henter : o.lambdaeps < (o.lambdamax - o.lambdamin) / (o.lambdamax + o.lambdamin))
    (h : ocUpdate o fuel x f dfdx g0 dgdx g = .done r) : WithinMove o.n o.movelimit x r.1 := by
  rw [ocUpdate] at h
  cases hl : ocLoop o x dfdx dgdx g fuel (ocStart o) with
  | undefined => simp [hl] at h
  | running => simp [hl] at h
  | done fin =>
    simp only [hl] at h
    injection h with h
    subst h
    obtain ⟨q, hq, ⟨h1, _⟩ | ⟨_, f', st', _, hb, hl'⟩⟩ := ocLoop_done hl
    · rw [div?_eq_some] at hq
      have : q = (o.lambdamax - o.lambdamin) / (o.lambdamax + o.lambdamin) := hq.2
      rw [this] at h1
      exact absurd henter (not_lt.2 h1)
    · refine ocLoop_invariant (fun st => WithinMove o.n o.movelimit x st.xkp1) (fun st st' _ hb => ?_) hl' ?_
      · obtain ⟨t, ht, rfl, _⟩ := ocBody_eq hb
        exact ocTrial_within hm hx ht
      · obtain ⟨t, ht, rfl, _⟩ := ocBody_eq hb
        exact ocTrial_within hm hx ht

/-- **C46** for the limits: they hold when `xmin` is not positive and `xmax` at least 1.  Missing: other
limits, which are ignored (`C46_box_false`). -/
theorem C46_box_partial {o : OC} {fuel : ℕ} {x dfdx dgdx : List ℝ} {f g0 : ℝ} {g : ℕ → List ℝ → ℝ}
    {r : List ℝ × OC} (hm : 0 ≤ o.movelimit) (hx : ∀ v ∈ x, 0 ≤ v ∧ v ≤ 1)
    (henter : o.lambdaeps < (o.lambdamax - o.lambdamin) / (o.lambdamax + o.lambdamin))
    (hmin : ∀ v ∈ o.xmin, v ≤ 0) (hmax : ∀ v ∈ o.xmax, 1 ≤ v)
    (h : ocUpdate o fuel x f dfdx g0 dgdx g = .done r) {i : ℕ} {lo hi : ℝ} (hi' : i < o.n)
    (hlo : o.xmin[i]? = some lo) (hhi : o.xmax[i]? = some hi) : ∃ y, r.1[i]? = some y ∧ lo ≤ y ∧ y ≤ hi := by
  obtain ⟨_, h2⟩ := C46_move_partial hm hx henter h
  obtain ⟨xi, yi, _, e2, _, _, e5, e6⟩ := h2 i hi'
  exact ⟨yi, e2, (hmin _ (List.mem_of_getElem? hlo)).trans e5, e6.trans (hmax _ (List.mem_of_getElem? hhi))⟩

/-- **C46**: when the starting interval is already short the loop is skipped and the design becomes
zero, whatever it was. -/
theorem C46_skip (o : OC) (fuel : ℕ) (x dfdx dgdx : List ℝ) (f g0 : ℝ) (g : ℕ → List ℝ → ℝ)
    (h0 : o.lambdamax + o.lambdamin ≠ 0)
    (hskip : (o.lambdamax - o.lambdamin) / (o.lambdamax + o.lambdamin) ≤ o.lambdaeps) :
    ocUpdate o fuel x f dfdx g0 dgdx g = .done (List.replicate o.n 0, { o with previousvalue := f }) := by
  have hd : div? ((ocStart o).lambda1 - (ocStart o).lambda0) ((ocStart o).lambda1 + (ocStart o).lambda0)
      = some ((o.lambdamax - o.lambdamin) / (o.lambdamax + o.lambdamin)) :=
    div?_eq_some.2 ⟨h0, rfl⟩
  rw [ocUpdate, ocLoop_eq, hd]
  simp only [if_neg (not_lt.2 hskip)]
  rfl

/-- An object used in the witnesses: one variable, limits [0.01, 1]. -/
noncomputable def ocWitness (lambdamax : ℝ) : OC :=
  OC.mk' 1 (1 / 2) 1 lambdamax (2 / 5) (3 / 20) [1 / 100] [1]

theorem ocWitness_run (g : ℕ → List ℝ → ℝ) : ∃ o', ocUpdate (ocWitness 3) 1 [1 / 100] 0 [0] 0 [1] g
    = .done ([17 / 2000], o') := by
  have hp : pow? 0 (1 / 2) = some 0 := by
    rw [pow?, if_neg (by simp), if_neg (by norm_num), Real.zero_rpow (by norm_num)]
  have ht : ocTrial (ocWitness 3) [1 / 100] [0] [1] 2 = some [17 / 2000] := by
    have he : ocEntry (1 / 2) (3 / 20) 2 0 1 (1 / 100) = some (17 / 2000) := by
      have hd : div? (-(0 : ℝ)) (1 * 2) = some 0 := div?_eq_some.2 ⟨by norm_num, by norm_num⟩
      rw [ocEntry, hd]
      simp only [Option.bind_eq_bind, Option.bind_some]
      rw [hp]
      simp only [Option.bind_some, Option.pure_def, Option.some.injEq, zero_mul, ocClamp]
      norm_num
    rw [ocTrial]
    simp only [ocWitness, OC.mk', List.range_one, List.mapM_cons, List.mapM_nil, List.getElem?_cons_zero,
      Option.bind_eq_bind, Option.bind_some]
    rw [he]
    rfl
  have hd : div? ((ocStart (ocWitness 3)).lambda1 - (ocStart (ocWitness 3)).lambda0)
      ((ocStart (ocWitness 3)).lambda1 + (ocStart (ocWitness 3)).lambda0) = some (1 / 2) :=
    div?_eq_some.2 ⟨by norm_num [ocStart, ocWitness, OC.mk'], by norm_num [ocStart, ocWitness, OC.mk']⟩
  have hlam : (0.5 : ℝ) * ((ocStart (ocWitness 3)).lambda1 + (ocStart (ocWitness 3)).lambda0) = 2 := by
    norm_num [ocStart, ocWitness, OC.mk']
  have heps : (ocWitness 3).lambdaeps = 2 / 5 := rfl
  rw [ocUpdate, ocLoop_eq, hd]
  simp only [heps]
  rw [if_pos (by norm_num), ocBody, hlam, ht]
  simp only [Option.bind_eq_bind, Option.bind_some, Option.pure_def]
  by_cases hg : 0 < g (ocStart (ocWitness 3)).calls [17 / 2000]
  · rw [if_pos hg]
    have hd2 : div? ((ocStart (ocWitness 3)).lambda1 - 2) ((ocStart (ocWitness 3)).lambda1 + 2) = some (1 / 5) :=
      div?_eq_some.2 ⟨by norm_num [ocStart, ocWitness, OC.mk'], by norm_num [ocStart, ocWitness, OC.mk']⟩
    rw [ocLoop_eq]
    simp only [hd2, heps]
    rw [if_neg (by norm_num)]
    exact ⟨_, rfl⟩
  · rw [if_neg hg]
    have hd2 : div? (2 - (ocStart (ocWitness 3)).lambda0) (2 + (ocStart (ocWitness 3)).lambda0) = some (1 / 3) :=
      div?_eq_some.2 ⟨by norm_num [ocStart, ocWitness, OC.mk'], by norm_num [ocStart, ocWitness, OC.mk']⟩
    rw [ocLoop_eq]
    simp only [hd2, heps]
    rw [if_neg (by norm_num)]
    exact ⟨_, rfl⟩

/-- **C46** is false for the limits: `xmin` is ignored. -/
theorem C46_box_false : ¬ ∀ (o : OC) (fuel : ℕ) (x dfdx dgdx : List ℝ) (f g0 : ℝ) (g : ℕ → List ℝ → ℝ)
    (r : List ℝ × OC), 0 ≤ o.movelimit → (∀ v ∈ x, 0 ≤ v ∧ v ≤ 1) →
    (∀ (i : ℕ) (lo hi xi : ℝ), o.xmin[i]? = some lo → o.xmax[i]? = some hi → x[i]? = some xi → lo ≤ xi ∧ xi ≤ hi) →
    ocUpdate o fuel x f dfdx g0 dgdx g = .done r →
    ∀ (i : ℕ) (lo hi yi : ℝ), o.xmin[i]? = some lo → o.xmax[i]? = some hi → r.1[i]? = some yi → lo ≤ yi ∧ yi ≤ hi := by
  intro H
  obtain ⟨o', h⟩ := ocWitness_run fun _ _ => 0
  have := H (ocWitness 3) 1 [1 / 100] [0] [1] 0 0 _ _ (by norm_num [ocWitness, OC.mk'])
    (by norm_num) (by
      intro i lo hi xi h1 h2 h3
      have e1 : (ocWitness 3).xmin = [1 / 100] := rfl
      have e2 : (ocWitness 3).xmax = [1] := rfl
      rw [e1] at h1
      rw [e2] at h2
      cases i with
      | zero =>
        simp only [List.getElem?_cons_zero, Option.some.injEq] at h1 h2 h3
        subst h1 h2 h3
        norm_num
      | succ i => simp at h1) h 0 (1 / 100) 1 (17 / 2000) rfl rfl rfl
  norm_num at this

/-- **C46** is false for the move limits when the starting interval is a single multiplier: the design
1/2 becomes 0. -/
theorem C46_move_false : ¬ ∀ (o : OC) (fuel : ℕ) (x dfdx dgdx : List ℝ) (f g0 : ℝ) (g : ℕ → List ℝ → ℝ)
    (r : List ℝ × OC), 0 < o.lambdamin → o.lambdamin ≤ o.lambdamax → 0 < o.lambdaeps → 0 ≤ o.movelimit →
    x.length = o.n → (∀ v ∈ x, 0 ≤ v ∧ v ≤ 1) →
    ocUpdate o fuel x f dfdx g0 dgdx g = .done r → WithinMove o.n o.movelimit x r.1 := by
  intro H
  have hs := C46_skip (ocWitness 1) 0 [1 / 2] [-1] [1] 0 0 (fun _ _ => 0)
    (by norm_num [ocWitness, OC.mk']) (by norm_num [ocWitness, OC.mk'])
  obtain ⟨_, h2⟩ := H (ocWitness 1) 0 [1 / 2] [-1] [1] 0 0 _ _ (by norm_num [ocWitness, OC.mk'])
    (by norm_num [ocWitness, OC.mk']) (by norm_num [ocWitness, OC.mk']) (by norm_num [ocWitness, OC.mk'])
    rfl (by norm_num) hs
  obtain ⟨xi, yi, e1, e2, e3, _⟩ := h2 0 (by norm_num [ocWitness, OC.mk'])
  have hn : (ocWitness 1).n = 1 := rfl
  have hm : (ocWitness 1).movelimit = 3 / 20 := rfl
  simp only [hn, List.replicate_one, List.getElem?_cons_zero, Option.some.injEq] at e1 e2
  subst e1 e2
  rw [hm] at e3
  norm_num at e3

/-- The hypotheses of `C46_move_partial` are met by the run of the witness. -/
example (g : ℕ → List ℝ → ℝ) : ∃ r, ocUpdate (ocWitness 3) 1 [1 / 100] 0 [0] 0 [1] g = .done r ∧
    WithinMove 1 (3 / 20) [1 / 100] r.1 := by
  obtain ⟨o', h⟩ := ocWitness_run g
  exact ⟨_, h, C46_move_partial (by norm_num [ocWitness, OC.mk']) (by norm_num)
    (by norm_num [ocWitness, OC.mk']) h⟩

/-! ### C47 -/

section Termination
variable {o : OC} {x dfdx dgdx : List ℝ} {g : ℕ → List ℝ → ℝ}

theorem ocLoop_not_running {fuel : ℕ} {st : OCState} (h0 : 0 < st.lambda0) (h1 : st.lambda0 ≤ st.lambda1)
    (he : 0 < o.lambdaeps) (hw : st.lambda1 - st.lambda0 ≤ 2 ^ fuel * (2 * st.lambda0 * o.lambdaeps)) :
    ocLoop o x dfdx dgdx g fuel st ≠ .running := by
  induction fuel generalizing st with
  | zero =>
    have hs : 0 < st.lambda1 + st.lambda0 := by linarith
    have hd : div? (st.lambda1 - st.lambda0) (st.lambda1 + st.lambda0)
        = some ((st.lambda1 - st.lambda0) / (st.lambda1 + st.lambda0)) := div?_eq_some.2 ⟨hs.ne', rfl⟩
    rw [ocLoop_eq, hd]
    have : (st.lambda1 - st.lambda0) / (st.lambda1 + st.lambda0) ≤ o.lambdaeps := by
      rw [div_le_iff₀ hs]
      rw [pow_zero, one_mul] at hw
      nlinarith
    simp only [if_neg (not_lt.2 this)]
    exact fun h => nomatch h
  | succ fuel ih =>
    have hs : 0 < st.lambda1 + st.lambda0 := by linarith
    have hd : div? (st.lambda1 - st.lambda0) (st.lambda1 + st.lambda0)
        = some ((st.lambda1 - st.lambda0) / (st.lambda1 + st.lambda0)) := div?_eq_some.2 ⟨hs.ne', rfl⟩
    rw [ocLoop_eq, hd]
    simp only
    split_ifs with hc
    · cases hb : ocBody o x dfdx dgdx g st with
      | none => exact fun h => nomatch h
      | some st' =>
        dsimp only
        obtain ⟨t, _, _, ⟨_, e0, e1⟩ | ⟨_, e0, e1⟩⟩ := ocBody_eq hb
        · refine ih (by rw [e0]; linarith) (by rw [e0, e1]; linarith) ?_
          rw [e0, e1]
          have : 0 ≤ (2 : ℝ) ^ fuel * o.lambdaeps := by positivity
          rw [pow_succ] at hw
          nlinarith
        · refine ih (by rw [e0]; linarith) (by rw [e0, e1]; linarith) ?_
          rw [e0, e1]
          rw [pow_succ] at hw
          nlinarith
    · exact fun h => nomatch h

/-- **C47** for a positive lower end of the starting interval: one number of passes suffices for all
designs, sensitivities and callbacks.  Missing: `lambdamin = 0`, for which the loop need not end
(`C47_never`, `C47_false`). -/
theorem C47_terminates_partial (o : OC) (h0 : 0 < o.lambdamin) (h1 : o.lambdamin ≤ o.lambdamax)
    (he : 0 < o.lambdaeps) : ∃ N, ∀ fuel, N ≤ fuel → ∀ x f dfdx g0 dgdx (g : ℕ → List ℝ → ℝ),
      ocUpdate o fuel x f dfdx g0 dgdx g ≠ .running := by
  have hpos : 0 < 2 * o.lambdamin * o.lambdaeps := by positivity
  obtain ⟨N, hN⟩ := pow_unbounded_of_one_lt ((o.lambdamax - o.lambdamin) / (2 * o.lambdamin * o.lambdaeps))
    (one_lt_two (α := ℝ))
  rw [div_lt_iff₀ hpos] at hN
  refine ⟨N, fun fuel hf x f dfdx g0 dgdx g h => ?_⟩
  have hp : (2 : ℝ) ^ N ≤ 2 ^ fuel := pow_le_pow_right₀ one_le_two hf
  have := ocLoop_not_running (o := o) (x := x) (dfdx := dfdx) (dgdx := dgdx) (g := g) (fuel := fuel)
    (st := ocStart o) h0 h1 he (by
      have e : (ocStart o).lambda1 - (ocStart o).lambda0 = o.lambdamax - o.lambdamin := rfl
      have e' : (ocStart o).lambda0 = o.lambdamin := rfl
      rw [e, e']
      nlinarith)
  rw [ocUpdate] at h
  cases hl : ocLoop o x dfdx dgdx g fuel (ocStart o) with
  | undefined => rw [hl] at h; exact nomatch h
  | running => exact this hl
  | done st => rw [hl] at h; exact nomatch h

/-- The trial designs are real numbers: `-df/dg` is not negative and the exponent not negative. -/
structure TrialOk (o : OC) (x dfdx dgdx : List ℝ) : Prop where
  iota : 0 ≤ o.iota
  len : x.length = o.n ∧ dfdx.length = o.n ∧ dgdx.length = o.n
  df : ∀ v ∈ dfdx, v ≤ 0
  dg : ∀ v ∈ dgdx, 0 < v

theorem pow?_nonneg {b e : ℝ} (hb : 0 ≤ b) (he : 0 ≤ e) : pow? b e = some (b ^ e) := by
  rw [pow?, if_neg (fun h => absurd h.1 (not_lt.2 hb)), if_neg (fun h => absurd h.2 (not_lt.2 he))]

theorem ocEntry_eq {iota move lambda df dg x : ℝ} (hi : 0 ≤ iota) (hl : 0 < lambda) (hf : df ≤ 0)
    (hg : 0 < dg) : ocEntry iota move lambda df dg x
      = some (ocClamp move x ((-df / (dg * lambda)) ^ iota * x)) := by
  have hd : div? (-df) (dg * lambda) = some (-df / (dg * lambda)) :=
    div?_eq_some.2 ⟨(mul_pos hg hl).ne', rfl⟩
  rw [ocEntry, hd]
  simp only [Option.bind_eq_bind, Option.bind_some]
  rw [pow?_nonneg (div_nonneg (by linarith) (mul_pos hg hl).le) hi]
  rfl

theorem ocTrial_defined (h : TrialOk o x dfdx dgdx) {lambda : ℝ} (hl : 0 < lambda) :
    ∃ t, ocTrial o x dfdx dgdx lambda = some t := by
  obtain ⟨l1, l2, l3⟩ := h.len
  refine ⟨_, range_mapM (g := fun i : Fin o.n => ocClamp o.movelimit x[(i : ℕ)]
    ((-dfdx[(i : ℕ)] / (dgdx[(i : ℕ)] * lambda)) ^ o.iota * x[(i : ℕ)])) fun i => ?_⟩
  rw [List.getElem?_eq_getElem (by omega), List.getElem?_eq_getElem (by omega),
    List.getElem?_eq_getElem (by omega)]
  exact ocEntry_eq h.iota hl (h.df _ (List.getElem_mem _)) (h.dg _ (List.getElem_mem _))

theorem ocLoop_defined (h : TrialOk o x dfdx dgdx) {fuel : ℕ} {st : OCState} (h0 : 0 < st.lambda0)
    (h1 : st.lambda0 ≤ st.lambda1) : ocLoop o x dfdx dgdx g fuel st ≠ .undefined := by
  induction fuel generalizing st with
  | zero =>
    have hd : div? (st.lambda1 - st.lambda0) (st.lambda1 + st.lambda0)
        = some ((st.lambda1 - st.lambda0) / (st.lambda1 + st.lambda0)) :=
      div?_eq_some.2 ⟨by linarith, rfl⟩
    rw [ocLoop_eq, hd]
    simp only
    split_ifs <;> exact fun h => nomatch h
  | succ fuel ih =>
    have hd : div? (st.lambda1 - st.lambda0) (st.lambda1 + st.lambda0)
        = some ((st.lambda1 - st.lambda0) / (st.lambda1 + st.lambda0)) :=
      div?_eq_some.2 ⟨by linarith, rfl⟩
    rw [ocLoop_eq, hd]
    simp only
    split_ifs
    · cases hb : ocBody o x dfdx dgdx g st with
      | none =>
        have e : (0.5 : ℝ) * (st.lambda1 + st.lambda0) = (st.lambda0 + st.lambda1) / 2 := by ring
        obtain ⟨t, ht⟩ := ocTrial_defined h (lambda := (st.lambda0 + st.lambda1) / 2) (by linarith)
        rw [ocBody, e, ht] at hb
        simp at hb
      | some st' =>
        dsimp only
        obtain ⟨t, _, _, ⟨_, e0, e1⟩ | ⟨_, e0, e1⟩⟩ := ocBody_eq hb
        · exact ih (by rw [e0]; linarith) (by rw [e0, e1]; linarith)
        · exact ih (by rw [e0]; linarith) (by rw [e0, e1]; linarith)
    · exact fun h => nomatch h

/-- **C47**: with objective sensitivities that are nowhere positive and constraint sensitivities that are
positive every update from a positive interval returns a design. -/
theorem C47_returns (o : OC) (h0 : 0 < o.lambdamin) (h1 : o.lambdamin ≤ o.lambdamax) (he : 0 < o.lambdaeps)
    (h : TrialOk o x dfdx dgdx) (f g0 : ℝ) :
    ∃ N, ∀ g : ℕ → List ℝ → ℝ, ∃ r, ocUpdate o N x f dfdx g0 dgdx g = .done r := by
  obtain ⟨N, hN⟩ := C47_terminates_partial o h0 h1 he
  refine ⟨N, fun g => ?_⟩
  have h2 := hN N le_rfl x f dfdx g0 dgdx g
  have h3 := ocLoop_defined (g := g) h (fuel := N) (st := ocStart o) h0 h1
  rw [ocUpdate] at h2 ⊢
  cases hl : ocLoop o x dfdx dgdx g N (ocStart o) with
  | undefined => exact absurd hl h3
  | running => rw [hl] at h2; exact absurd rfl h2
  | done st => exact ⟨_, rfl⟩

theorem ocLoop_running (h : TrialOk o x dfdx dgdx) (he : o.lambdaeps < 1) (hg : ∀ k t, g k t ≤ 0) (fuel : ℕ)
    {st : OCState} (h0 : st.lambda0 = 0) (h1 : 0 < st.lambda1) : ocLoop o x dfdx dgdx g fuel st = .running := by
  induction fuel generalizing st with
  | zero =>
    have hd : div? (st.lambda1 - st.lambda0) (st.lambda1 + st.lambda0) = some 1 := by
      rw [h0, sub_zero, add_zero]
      exact div?_eq_some.2 ⟨h1.ne', (div_self h1.ne').symm⟩
    rw [ocLoop_eq, hd]
    simp only [if_pos he]
  | succ fuel ih =>
    have hd : div? (st.lambda1 - st.lambda0) (st.lambda1 + st.lambda0) = some 1 := by
      rw [h0, sub_zero, add_zero]
      exact div?_eq_some.2 ⟨h1.ne', (div_self h1.ne').symm⟩
    rw [ocLoop_eq, hd]
    simp only [if_pos he]
    cases hb : ocBody o x dfdx dgdx g st with
    | none =>
      have e : (0.5 : ℝ) * (st.lambda1 + st.lambda0) = (st.lambda0 + st.lambda1) / 2 := by ring
      obtain ⟨t, ht⟩ := ocTrial_defined h (lambda := (st.lambda0 + st.lambda1) / 2) (by linarith)
      rw [ocBody, e, ht] at hb
      simp at hb
    | some st' =>
      dsimp only
      obtain ⟨t, _, _, ⟨hpos, e0, e1⟩ | ⟨_, e0, e1⟩⟩ := ocBody_eq hb
      · exact absurd hpos (not_lt.2 (hg _ _))
      · exact ih (by rw [e0, h0]) (by rw [e1]; linarith)

/-- **C47**: from an interval starting at zero the loop never ends when the callback never reports a
violated constraint: the relative width stays 1. -/
theorem C47_never (h : TrialOk o x dfdx dgdx) (h0 : o.lambdamin = 0) (h1 : 0 < o.lambdamax)
    (he : o.lambdaeps < 1) (hg : ∀ k t, g k t ≤ 0) (f g0 : ℝ) (fuel : ℕ) :
    ocUpdate o fuel x f dfdx g0 dgdx g = .running := by
  rw [ocUpdate, ocLoop_running h he hg fuel (st := ocStart o) h0 h1]

end Termination

/-- The parameters of the samples (sample/optimize/sample_optimize_density_oc.cpp) for one variable. -/
noncomputable def ocSample : OC := OC.mk' 1 0.5 0.0 1.0e4 1.0e-3 0.15 [0.01] [1.0]

/-- **C47** is false as stated: with the parameters of the samples and a constraint that is never
violated the loop runs for ever (in exact arithmetic). -/
theorem C47_false : ¬ ∀ (o : OC) (x dfdx dgdx : List ℝ) (f g0 : ℝ) (g : ℕ → List ℝ → ℝ),
    0 ≤ o.lambdamin → o.lambdamin < o.lambdamax → 0 < o.lambdaeps →
    ∃ fuel, ocUpdate o fuel x f dfdx g0 dgdx g ≠ .running := by
  intro H
  obtain ⟨fuel, h⟩ := H ocSample [1 / 2] [-1] [1] 0 0 (fun _ _ => -1)
    (by norm_num [ocSample, OC.mk']) (by norm_num [ocSample, OC.mk']) (by norm_num [ocSample, OC.mk'])
  refine h (C47_never ⟨by norm_num [ocSample, OC.mk'], ⟨rfl, rfl, rfl⟩, by norm_num, by norm_num⟩ ?_ ?_ ?_ ?_ 0 0
    fuel)
  · norm_num [ocSample, OC.mk']
  · norm_num [ocSample, OC.mk']
  · norm_num [ocSample, OC.mk']
  · intro k t; norm_num

example : ∃ N, ∀ g : ℕ → List ℝ → ℝ, ∃ r, ocUpdate (ocWitness 1000) N [1 / 2] 0 [-3] 0 [2] g = .done r :=
  C47_returns _ (by norm_num [ocWitness, OC.mk']) (by norm_num [ocWitness, OC.mk'])
    (by norm_num [ocWitness, OC.mk']) ⟨by norm_num [ocWitness, OC.mk'], ⟨rfl, rfl, rfl⟩, by norm_num, by norm_num⟩ 0 0

/-! ### C77 -/

section Bracket
variable {o : OC} {x dfdx dgdx : List ℝ}

/-- **C77**: the loop ends with two multipliers of relative distance at most `lambdaeps`, the lower one
being `lambdamin` or reported infeasible, the upper one `lambdamax` or reported feasible; the returned
design is the trial of one of the two (when the loop was entered). -/
theorem C77_bracket {g : List ℝ → ℝ} {fuel : ℕ} {f g0 : ℝ} {r : List ℝ × OC} (h0 : 0 < o.lambdamin)
    (h1 : o.lambdamin ≤ o.lambdamax)
    (henter : o.lambdaeps < (o.lambdamax - o.lambdamin) / (o.lambdamax + o.lambdamin))
    (h : ocUpdate o fuel x f dfdx g0 dgdx (fun _ => g) = .done r) :
    ∃ a b, o.lambdamin ≤ a ∧ a ≤ b ∧ b ≤ o.lambdamax ∧ b - a ≤ o.lambdaeps * (b + a) ∧
      (a = o.lambdamin ∨ ∃ t, ocTrial o x dfdx dgdx a = some t ∧ 0 < g t) ∧
      (b = o.lambdamax ∨ ∃ t, ocTrial o x dfdx dgdx b = some t ∧ g t ≤ 0) ∧
      (ocTrial o x dfdx dgdx a = some r.1 ∨ ocTrial o x dfdx dgdx b = some r.1) := by
  rw [ocUpdate] at h
  cases hl : ocLoop o x dfdx dgdx (fun _ => g) fuel (ocStart o) with
  | undefined => simp [hl] at h
  | running => simp [hl] at h
  | done fin =>
    simp only [hl] at h
    injection h with h
    subst h
    have hstep : ∀ st st', (o.lambdamin ≤ st.lambda0 ∧ st.lambda0 ≤ st.lambda1 ∧ st.lambda1 ≤ o.lambdamax ∧
        (st.lambda0 = o.lambdamin ∨ ∃ t, ocTrial o x dfdx dgdx st.lambda0 = some t ∧ 0 < g t) ∧
        (st.lambda1 = o.lambdamax ∨ ∃ t, ocTrial o x dfdx dgdx st.lambda1 = some t ∧ g t ≤ 0)) →
        ocBody o x dfdx dgdx (fun _ => g) st = some st' →
        (o.lambdamin ≤ st'.lambda0 ∧ st'.lambda0 ≤ st'.lambda1 ∧ st'.lambda1 ≤ o.lambdamax ∧
        (st'.lambda0 = o.lambdamin ∨ ∃ t, ocTrial o x dfdx dgdx st'.lambda0 = some t ∧ 0 < g t) ∧
        (st'.lambda1 = o.lambdamax ∨ ∃ t, ocTrial o x dfdx dgdx st'.lambda1 = some t ∧ g t ≤ 0)) ∧
        (ocTrial o x dfdx dgdx st'.lambda0 = some st'.xkp1 ∨ ocTrial o x dfdx dgdx st'.lambda1 = some st'.xkp1) := by
      rintro st st' ⟨i1, i2, i3, i4, i5⟩ hb
      obtain ⟨t, ht, hx, ⟨hg, e0, e1⟩ | ⟨hg, e0, e1⟩⟩ := ocBody_eq hb
      · rw [e0, e1, hx]
        exact ⟨⟨by linarith, by linarith, i3, Or.inr ⟨t, ht, hg⟩, i5⟩, Or.inl ht⟩
      · rw [e0, e1, hx]
        exact ⟨⟨i1, by linarith, by linarith, i4, Or.inr ⟨t, ht, hg⟩⟩, Or.inr ht⟩
    obtain ⟨q, hq, hle⟩ := ocLoop_exit hl
    obtain ⟨q0, hq0, ⟨hno, _⟩ | ⟨_, f', st', _, hb, hl'⟩⟩ := ocLoop_done hl
    · have : q0 = (o.lambdamax - o.lambdamin) / (o.lambdamax + o.lambdamin) := (div?_eq_some.1 hq0).2
      rw [this] at hno
      exact absurd henter (not_lt.2 hno)
    · have hfin := ocLoop_invariant (fun st => (o.lambdamin ≤ st.lambda0 ∧ st.lambda0 ≤ st.lambda1 ∧
        st.lambda1 ≤ o.lambdamax ∧
        (st.lambda0 = o.lambdamin ∨ ∃ t, ocTrial o x dfdx dgdx st.lambda0 = some t ∧ 0 < g t) ∧
        (st.lambda1 = o.lambdamax ∨ ∃ t, ocTrial o x dfdx dgdx st.lambda1 = some t ∧ g t ≤ 0)) ∧
        (ocTrial o x dfdx dgdx st.lambda0 = some st.xkp1 ∨ ocTrial o x dfdx dgdx st.lambda1 = some st.xkp1))
        (fun st st' hP hb => hstep st st' hP.1 hb) hl'
        (hstep (ocStart o) st' ⟨le_rfl, h1, le_rfl, Or.inl rfl, Or.inl rfl⟩ hb)
      obtain ⟨⟨i1, i2, i3, i4, i5⟩, i6⟩ := hfin
      refine ⟨fin.lambda0, fin.lambda1, i1, i2, i3, ?_, i4, i5, i6⟩
      obtain ⟨hne, rfl⟩ := div?_eq_some.1 hq
      rwa [div_le_iff₀ (by linarith)] at hle

theorem ocClamp_mono {move x y z : ℝ} (hm : 0 ≤ move) (h0 : 0 ≤ x) (h1 : x ≤ 1) (h : y ≤ z) :
    ocClamp move x y ≤ ocClamp move x z := by
  have b1 := ocClamp_bounds (y := y) hm h0 h1
  have b2 := ocClamp_bounds (y := z) hm h0 h1
  by_cases hz : min 1 ((1 + move) * x) < z
  · have : ocClamp move x z = min 1 ((1 + move) * x) := by
      unfold ocClamp
      rw [if_neg, if_pos hz]
      have := b1.1.trans b1.2
      exact not_lt.2 (this.trans hz.le)
    rw [this]; exact b1.2
  · by_cases hy : y < max 0 ((1 - move) * x)
    · have : ocClamp move x y = max 0 ((1 - move) * x) := by
        unfold ocClamp; rw [if_pos hy]
      rw [this]; exact b2.1
    · have ey : ocClamp move x y = y := by
        unfold ocClamp
        rw [if_neg hy, if_neg (fun hh => hz (hh.trans_le h))]
      have ez : ocClamp move x z = z := by
        unfold ocClamp
        rw [if_neg (fun hh => hy (h.trans_lt hh)), if_neg hz]
      rw [ey, ez]; exact h

/-- **C77**: a larger multiplier gives no larger variable, so feasibility of a monotone constraint
changes once along the interval. -/
theorem C77_monotone (h : TrialOk o x dfdx dgdx) (hm : 0 ≤ o.movelimit) (hx : ∀ v ∈ x, 0 ≤ v ∧ v ≤ 1)
    {a b : ℝ} (ha : 0 < a) (hab : a ≤ b) {s t : List ℝ} (hs : ocTrial o x dfdx dgdx a = some s)
    (ht : ocTrial o x dfdx dgdx b = some t) : List.Forall₂ (· ≤ ·) t s := by
  obtain ⟨ls, es⟩ := ocTrial_entry hs
  obtain ⟨lt, et⟩ := ocTrial_entry ht
  rw [List.forall₂_iff_get]
  refine ⟨by omega, fun i h1 h2 => ?_⟩
  obtain ⟨df, dg, xi, si, d1, d2, d3, d4, d5⟩ := es i (by omega)
  obtain ⟨df', dg', xi', ti, c1, c2, c3, c4, c5⟩ := et i (by omega)
  rw [d1, Option.some.injEq] at c1
  rw [d2, Option.some.injEq] at c2
  rw [d3, Option.some.injEq] at c3
  subst c1 c2 c3
  have hdf := h.df _ (List.mem_of_getElem? d1)
  have hdg := h.dg _ (List.mem_of_getElem? d2)
  have hxi := hx _ (List.mem_of_getElem? d3)
  rw [ocEntry_eq h.iota ha hdf hdg, Option.some.injEq] at d5
  rw [ocEntry_eq h.iota (ha.trans_le hab) hdf hdg, Option.some.injEq] at c5
  rw [List.getElem?_eq_getElem h2, Option.some.injEq] at d4
  rw [List.getElem?_eq_getElem h1, Option.some.injEq] at c4
  simp only [List.get_eq_getElem]
  rw [d4, c4, ← d5, ← c5]
  refine ocClamp_mono hm hxi.1 hxi.2 (mul_le_mul_of_nonneg_right ?_ hxi.1)
  refine Real.rpow_le_rpow (div_nonneg (by linarith) (mul_pos hdg (ha.trans_le hab)).le) ?_ h.iota
  exact div_le_div_of_nonneg_left (by linarith) (mul_pos hdg ha) (mul_le_mul_of_nonneg_left hab hdg.le)

example : ∃ s t, ocTrial (ocWitness 3) [1 / 2] [-3] [2] 1 = some s ∧ ocTrial (ocWitness 3) [1 / 2] [-3] [2] 2 = some t ∧
    List.Forall₂ (· ≤ ·) t s := by
  have h : TrialOk (ocWitness 3) [1 / 2] [-3] [2] :=
    ⟨by norm_num [ocWitness, OC.mk'], ⟨rfl, rfl, rfl⟩, by norm_num, by norm_num⟩
  obtain ⟨s, hs⟩ := ocTrial_defined h (lambda := 1) one_pos
  obtain ⟨t, ht⟩ := ocTrial_defined h (lambda := 2) two_pos
  exact ⟨s, t, hs, ht, C77_monotone h (by norm_num [ocWitness, OC.mk']) (by norm_num) one_pos one_le_two hs ht⟩

/-- **C77**: the returned design may be the infeasible end of the bracket. -/
theorem C77_infeasible : ∃ o', ocUpdate (ocWitness 3) 1 [1 / 100] 0 [0] 0 [1] (fun _ _ => 1)
    = .done ([17 / 2000], o') ∧ 0 < (fun _ : List ℝ => (1 : ℝ)) [17 / 2000] := by
  obtain ⟨o', h⟩ := ocWitness_run fun _ _ => 1
  exact ⟨o', h, one_pos⟩

end Bracket

example (g : List ℝ → ℝ) : ∃ a b, (1 : ℝ) ≤ a ∧ a ≤ b ∧ b ≤ 3 ∧ b - a ≤ 2 / 5 * (b + a) := by
  obtain ⟨o', h⟩ := ocWitness_run fun _ => g
  obtain ⟨a, b, h1, h2, h3, h4, _⟩ := C77_bracket (by norm_num [ocWitness, OC.mk'])
    (by norm_num [ocWitness, OC.mk']) (by norm_num [ocWitness, OC.mk']) h
  exact ⟨a, b, h1, h2, h3, h4⟩

/-! ### C78 -/

/-- **C78** where the sum of the two values is positive: `IsConvergence` tells whether the relative change
is below the tolerance.  Missing: other values (`C78_false`, `C78_negative`). -/
theorem C78_positive_partial {p eps f : ℝ} (h : 0 < f + p) :
    isConvergence p eps f = true ↔ |f - p| < eps * |f + p| := by
  have hd : div? |f - p| (f + p) = some (|f - p| / (f + p)) := div?_eq_some.2 ⟨h.ne', rfl⟩
  rw [isConvergence, hd, abs_of_pos h]
  simp only [decide_eq_true_eq]
  rw [div_lt_iff₀ h]

/-- **C78**: with a negative sum every value counts as converged. -/
theorem C78_negative {p eps f : ℝ} (he : 0 < eps) (h : f + p < 0) : isConvergence p eps f = true := by
  have hd : div? |f - p| (f + p) = some (|f - p| / (f + p)) := div?_eq_some.2 ⟨h.ne, rfl⟩
  rw [isConvergence, hd]
  simp only [decide_eq_true_eq]
  exact (div_nonpos_of_nonneg_of_nonpos (abs_nonneg _) h.le).trans_lt he

/-- **C78** is false as stated: from -1 to -100 counts as converged. -/
theorem C78_false : ¬ ∀ p eps f : ℝ, 0 < eps → (isConvergence p eps f = true ↔ |f - p| < eps * |f + p|) := by
  intro H
  have h := (H (-1) 1.0e-5 (-100) (by norm_num)).1 (C78_negative (by norm_num) (by norm_num))
  norm_num [abs_of_neg] at h

example : isConvergence 1 1.0e-5 2 = false := by
  rw [← Bool.not_eq_true, C78_positive_partial (by norm_num)]
  norm_num [abs_of_pos]

end Pansfem
