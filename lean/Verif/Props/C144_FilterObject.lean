/-
C144: the class `HeavisideFilter` under any sequence of calls, and what its parameter does.
-/
import Verif.Model.FilterObject
import Verif.Lemmas.Sharpen
import Verif.Props.C43_Filters

namespace Pansfem

open Finset Filter Topology

/-! ### Sequences of calls -/

/-- The parameter given last, `b` if none was given. -/
def lastBeta (b : ℝ) : List FilterCall → ℝ
  | [] => b
  | .updateBeta b' :: cs => lastBeta b' cs
  | .variables _ :: cs => lastBeta b cs
  | .sensitivities _ _ :: cs => lastBeta b cs

theorem call_state {o o' : HeavisideObj} {c : FilterCall} {r : Option (List ℝ)} (h : o.call c = some (o', r)) :
    o' = { o with beta := lastBeta o.beta [c] } := by
  cases c with
  | updateBeta b => exact (Prod.ext_iff.1 (Option.some.inj h)).1.symm
  | «variables» s =>
    unfold HeavisideObj.call at h
    cases hv : heavisideVariables o.n o.beta o.neighbors o.w s with
    | none => simp [hv] at h
    | some x => simp [hv] at h; exact h.1.symm
  | sensitivities s d =>
    unfold HeavisideObj.call at h
    cases hv : heavisideSensitivities o.n o.beta o.neighbors o.w s d with
    | none => simp [hv] at h
    | some x => simp [hv] at h; exact h.1.symm

theorem lastBeta_cons (b : ℝ) (c : FilterCall) (cs : List FilterCall) :
    lastBeta b (c :: cs) = lastBeta (lastBeta b [c]) cs := by cases c <;> rfl

/-- **C144**: a sequence of calls changes nothing in the object but its parameter, which is the one given last, and
every call answers. -/
theorem C144_object {o o' : HeavisideObj} {cs : List FilterCall} {rs : List (Option (List ℝ))}
    (h : o.calls cs = some (o', rs)) : o' = { o with beta := lastBeta o.beta cs } ∧ rs.length = cs.length := by
  induction cs generalizing o rs with
  | nil =>
    cases Option.some.inj h
    exact ⟨rfl, rfl⟩
  | cons c cs ih =>
    unfold HeavisideObj.calls at h
    cases h1 : o.call c with
    | none => simp [h1] at h
    | some p =>
      obtain ⟨o1, r⟩ := p
      cases h2 : o1.calls cs with
      | none => simp [h1, h2] at h
      | some q =>
        obtain ⟨o2, rs2⟩ := q
        simp only [h1, h2, Option.bind_eq_bind, Option.bind_some, Option.pure_def, Option.some.injEq,
          Prod.mk.injEq] at h
        obtain ⟨rfl, rfl⟩ := h
        obtain ⟨e, l⟩ := ih h2
        refine ⟨?_, by simp [l]⟩
        rw [e, call_state h1, lastBeta_cons o.beta c cs]

/-- **C144**: whatever was called before, `GetFilteredVariables` answers with the parameter given last, and
`GetFilteredSensitivitis` likewise; queries have no influence on each other. -/
theorem C144_returns {o o' : HeavisideObj} {cs ds : List FilterCall} {c : FilterCall} {rs : List (Option (List ℝ))}
    (h : o.calls (cs ++ c :: ds) = some (o', rs)) :
    (∀ s, c = .variables s → ∃ rho, rs[cs.length]? = some (some rho) ∧
      heavisideVariables o.n (lastBeta o.beta cs) o.neighbors o.w s = some rho) ∧
    ∀ s d, c = .sensitivities s d → ∃ g, rs[cs.length]? = some (some g) ∧
      heavisideSensitivities o.n (lastBeta o.beta cs) o.neighbors o.w s d = some g := by
  induction cs generalizing o rs with
  | nil =>
    rw [List.nil_append] at h
    unfold HeavisideObj.calls at h
    cases h1 : o.call c with
    | none => simp [h1] at h
    | some p =>
      obtain ⟨o1, r⟩ := p
      cases h2 : o1.calls ds with
      | none => simp [h1, h2] at h
      | some q =>
        obtain ⟨o2, rs2⟩ := q
        simp only [h1, h2, Option.bind_eq_bind, Option.bind_some, Option.pure_def, Option.some.injEq,
          Prod.mk.injEq] at h
        obtain ⟨rfl, rfl⟩ := h
        constructor
        · rintro s rfl
          unfold HeavisideObj.call at h1
          cases hv : heavisideVariables o.n o.beta o.neighbors o.w s with
          | none => simp [hv] at h1
          | some x =>
            simp only [hv, Option.bind_eq_bind, Option.bind_some, Option.pure_def, Option.some.injEq,
              Prod.mk.injEq] at h1
            exact ⟨x, by simp [← h1.2], hv⟩
        · rintro s d rfl
          unfold HeavisideObj.call at h1
          cases hv : heavisideSensitivities o.n o.beta o.neighbors o.w s d with
          | none => simp [hv] at h1
          | some x =>
            simp only [hv, Option.bind_eq_bind, Option.bind_some, Option.pure_def, Option.some.injEq,
              Prod.mk.injEq] at h1
            exact ⟨x, by simp [← h1.2], hv⟩
  | cons e cs ih =>
    rw [List.cons_append] at h
    unfold HeavisideObj.calls at h
    cases h1 : o.call e with
    | none => simp [h1] at h
    | some p =>
      obtain ⟨o1, r⟩ := p
      cases h2 : o1.calls (cs ++ c :: ds) with
      | none => simp [h1, h2] at h
      | some q =>
        obtain ⟨o2, rs2⟩ := q
        simp only [h1, h2, Option.bind_eq_bind, Option.bind_some, Option.pure_def, Option.some.injEq,
          Prod.mk.injEq] at h
        obtain ⟨rfl, rfl⟩ := h
        have := ih h2
        rw [call_state h1] at this
        rw [lastBeta_cons]
        simpa using this

/-! ### The sign of the parameter -/

theorem project_neg (beta y : ℝ) : project (-beta) y = project beta y := by
  unfold project div?
  rw [mul_neg, neg_mul, Real.tanh_neg, Real.tanh_neg]
  by_cases h : Real.tanh (0.5 * beta) = 0
  · rw [if_pos h, if_pos (neg_eq_zero.2 h)]
  · rw [if_neg h, if_neg fun h' => h (neg_eq_zero.1 h'), ← neg_add, mul_neg, neg_div_neg_eq]

theorem projectDerivative_neg (beta y : ℝ) : projectDerivative (-beta) y = projectDerivative beta y := by
  unfold projectDerivative div?
  rw [mul_neg, neg_mul beta, Real.tanh_neg, Real.tanh_neg, neg_sq]
  by_cases h : Real.tanh (0.5 * beta) = 0
  · rw [if_pos h, if_pos (neg_eq_zero.2 h)]
  · rw [if_neg h, if_neg fun h' => h (neg_eq_zero.1 h'), neg_mul, neg_div_neg_eq]

/-- **C144**: a parameter and its negative filter alike. -/
theorem C144_sign (n : ℕ) (beta : ℝ) (neighbors : List (List ℕ)) (w : List (List ℝ)) (s d : List ℝ) :
    heavisideVariables n (-beta) neighbors w s = heavisideVariables n beta neighbors w s ∧
      heavisideSensitivities n (-beta) neighbors w s d = heavisideSensitivities n beta neighbors w s d := by
  unfold heavisideVariables heavisideSensitivities heavisideEntry slopeEntry
  simp only [project_neg, projectDerivative_neg, and_self]

/-! ### When the calls have a result -/

variable {n : ℕ} {neighbors : List (List ℕ)} {w : List (List ℝ)}

/-- The arguments a filter of `n` variables can work with. -/
def CallFits (n : ℕ) : FilterCall → Prop
  | .updateBeta b => b ≠ 0
  | .variables s => s.length = n
  | .sensitivities s d => s.length = n ∧ d.length = n

theorem abs_sign {beta : ℝ} (hb : beta ≠ 0) : 0 < |beta| ∧ (|beta| = beta ∨ |beta| = -beta) :=
  ⟨abs_pos.2 hb, abs_choice beta⟩

theorem variables_defined (h : WeightsOk n neighbors w) {beta : ℝ} (hb : beta ≠ 0) {s : List ℝ} (hs : s.length = n) :
    ∃ rho, heavisideVariables n beta neighbors w s = some rho ∧ rho.length = n := by
  subst hs
  obtain ⟨h0, h1⟩ := abs_sign hb
  have e := heaviside_eq h.toTableOk (fun i hi => (h.pos i hi).ne') h0 fun k : Fin s.length => s[(k : ℕ)]
  rw [List.ofFn_getElem] at e
  rcases h1 with h1 | h1 <;> rw [h1] at e
  · exact ⟨_, e, by simp⟩
  · rw [(C144_sign _ _ _ _ _ []).1] at e
    exact ⟨_, e, by simp⟩

theorem sensitivities_defined (h : WeightsOk n neighbors w) {beta : ℝ} (hb : beta ≠ 0) {s d : List ℝ}
    (hs : s.length = n) (hd : d.length = n) :
    ∃ g, heavisideSensitivities n beta neighbors w s d = some g ∧ g.length = n := by
  subst hs
  obtain ⟨h0, h1⟩ := abs_sign hb
  have e := heavisideSensitivities_eq h.toTableOk (fun i hi => (h.pos i hi).ne') h0
    (fun k : Fin s.length => s[(k : ℕ)]) fun k : Fin s.length => d[(k : ℕ)]'(by omega)
  have e2 : (List.ofFn fun k : Fin s.length => d[(k : ℕ)]'(by omega)) = d :=
    List.ext_getElem (by simp [hd]) fun i _ _ => by simp
  rw [List.ofFn_getElem, e2] at e
  rcases h1 with h1 | h1 <;> rw [h1] at e
  · exact ⟨_, e, by simp⟩
  · rw [(C144_sign _ _ _ _ _ _).2] at e
    exact ⟨_, e, by simp⟩

theorem calls_defined (h : WeightsOk n neighbors w) {cs : List FilterCall} (hc : ∀ c ∈ cs, CallFits n c) {beta : ℝ}
    (hb : beta ≠ 0) : ∃ r, HeavisideObj.calls ⟨n, beta, neighbors, w⟩ cs = some r ∧
      ∀ v, some v ∈ r.2 → v.length = n := by
  induction cs generalizing beta with
  | nil => exact ⟨_, rfl, by simp⟩
  | cons c cs ih =>
    have hcs : ∀ c ∈ cs, CallFits n c := fun c hc' => hc c (List.mem_cons_of_mem _ hc')
    have hf := hc c List.mem_cons_self
    cases c with
    | updateBeta b =>
      obtain ⟨r, h1, h2⟩ := ih hcs (beta := b) hf
      refine ⟨(r.1, .none :: r.2), ?_, by simpa using h2⟩
      simp [HeavisideObj.calls, HeavisideObj.call, h1]
    | «variables» s =>
      obtain ⟨r, h1, h2⟩ := ih hcs hb
      obtain ⟨v, hv, hl⟩ := variables_defined h hb hf
      refine ⟨(r.1, some v :: r.2), ?_, ?_⟩
      · simp [HeavisideObj.calls, HeavisideObj.call, h1, hv]
      · intro u hu
        rcases List.mem_cons.1 hu with hu | hu
        · cases hu; exact hl
        · exact h2 u hu
    | sensitivities s d =>
      obtain ⟨r, h1, h2⟩ := ih hcs hb
      obtain ⟨v, hv, hl⟩ := sensitivities_defined h hb hf.1 hf.2
      refine ⟨(r.1, some v :: r.2), ?_, ?_⟩
      · simp [HeavisideObj.calls, HeavisideObj.call, h1, hv]
      · intro u hu
        rcases List.mem_cons.1 hu with hu | hu
        · cases hu; exact hl
        · exact h2 u hu

/-- **C144**: with tables of nonnegative weights, every sequence of calls with parameters other than zero and vectors
of the right length on a new object has a result, and all returned vectors have the right length. -/
theorem C144_defined (h : WeightsOk n neighbors w) {cs : List FilterCall} (hc : ∀ c ∈ cs, CallFits n c) :
    ∃ r, (HeavisideObj.make n neighbors w).calls cs = some r ∧ ∀ v, some v ∈ r.2 → v.length = n :=
  calls_defined h hc (beta := 1.0) (by norm_num)

/-- **C144**: after `UpdateBeta(0)` a filter with variables has no filtered variables. -/
theorem C144_zero (o : HeavisideObj) (hn : 0 < o.n) (s : List ℝ) :
    o.calls [.updateBeta 0, .variables s] = none := by
  have : heavisideVariables o.n 0 o.neighbors o.w s = none := by
    unfold heavisideVariables
    obtain ⟨m, hm⟩ : ∃ m, o.n = m + 1 := ⟨o.n - 1, by omega⟩
    rw [hm, List.range_succ_eq_map, List.mapM_cons]
    have : heavisideEntry 0 o.neighbors o.w s 0 = none := by
      unfold heavisideEntry
      cases weightedMean o.neighbors o.w (fun k => s[k]?) 0 with
      | none => rfl
      | some y => exact C45_beta_zero y
    rw [this]
    rfl
  simp [HeavisideObj.calls, HeavisideObj.call, this]

/-- **C144**: an object built without arguments answers every query with an empty vector. -/
theorem C144_empty (cs : List FilterCall) : ∃ r, HeavisideObj.none.calls cs = some r ∧ ∀ v, some v ∈ r.2 → v = [] := by
  suffices H : ∀ b : ℝ, ∃ r, HeavisideObj.calls ⟨0, b, [], []⟩ cs = some r ∧ ∀ v, some v ∈ r.2 → v = [] from H 1.0
  induction cs with
  | nil => exact fun b => ⟨_, rfl, by simp⟩
  | cons c cs ih =>
    intro b
    cases c with
    | updateBeta b' =>
      obtain ⟨r, h1, h2⟩ := ih b'
      exact ⟨(r.1, .none :: r.2), by simp [HeavisideObj.calls, HeavisideObj.call, h1], by simpa using h2⟩
    | «variables» s =>
      obtain ⟨r, h1, h2⟩ := ih b
      refine ⟨(r.1, some [] :: r.2), by simp [HeavisideObj.calls, HeavisideObj.call, heavisideVariables, h1], ?_⟩
      intro u hu
      rcases List.mem_cons.1 hu with hu | hu
      · cases hu; rfl
      · exact h2 u hu
    | sensitivities s d =>
      obtain ⟨r, h1, h2⟩ := ih b
      refine ⟨(r.1, some [] :: r.2), by simp [HeavisideObj.calls, HeavisideObj.call, heavisideSensitivities, h1], ?_⟩
      intro u hu
      rcases List.mem_cons.1 hu with hu | hu
      · cases hu; rfl
      · exact h2 u hu

/-! ### What the parameter does -/

theorem projected_half {beta : ℝ} (hb : 0 < beta) (y : ℝ) :
    projected beta y - 1 / 2 = Real.tanh ((2 * y - 1) * (beta / 2)) / Real.tanh (beta / 2) / 2 := by
  have ht := (tanh_pos (half_pos hb)).ne'
  rw [projected, show (2 * y - 1) * (beta / 2) = beta * (y - 1 / 2) by ring]
  field_simp
  ring

/-- **C144**: the projection treats material and void alike. -/
theorem C144_void {beta y a b : ℝ} (ha : project beta y = some a) (hb : project beta (1 - y) = some b) : b = 1 - a := by
  unfold project at ha hb
  rw [div?_eq_some] at ha hb
  obtain ⟨h0, rfl⟩ := ha
  obtain ⟨-, rfl⟩ := hb
  rw [show beta * (1 - y - 0.5) = -(beta * (y - 0.5)) by norm_num; ring, Real.tanh_neg]
  field_simp
  norm_num
  ring

/-- **C144**: raising the parameter moves no projected value of a density towards 1/2: values from 1/2 on do not
fall, the others do not rise. -/
theorem C144_sharpen {beta beta' y a a' : ℝ} (hb : 0 < beta) (hbb : beta ≤ beta') (h0 : 0 ≤ y) (h1 : y ≤ 1)
    (ha : project beta y = some a) (ha' : project beta' y = some a') :
    (1 / 2 ≤ y → 1 / 2 ≤ a ∧ a ≤ a') ∧ (y ≤ 1 / 2 → a' ≤ a ∧ a ≤ 1 / 2) := by
  have up : ∀ {z c c' : ℝ}, 1 / 2 ≤ z → z ≤ 1 → project beta z = some c → project beta' z = some c' →
      1 / 2 ≤ c ∧ c ≤ c' := by
    intro z c c' hz hz1 hc hc'
    have hc : projected beta z = c := Option.some.inj ((project_eq hb z).symm.trans hc)
    have hc' : projected beta' z = c' := Option.some.inj ((project_eq (hb.trans_le hbb) z).symm.trans hc')
    have e := projected_half hb z
    have e' := projected_half (hb.trans_le hbb) z
    have q := tanh_quotient (t := 2 * z - 1) (by linarith) (by linarith) (half_pos hb)
      (by linarith : beta / 2 ≤ beta' / 2)
    have p : 0 ≤ Real.tanh ((2 * z - 1) * (beta / 2)) / Real.tanh (beta / 2) := by
      refine div_nonneg ?_ (tanh_pos (half_pos hb)).le
      rw [← Real.tanh_zero]
      exact tanh_strictMono.monotone (mul_nonneg (by linarith) (by linarith))
    constructor <;> linarith
  refine ⟨fun h => up h h1 ha ha', fun h => ?_⟩
  have b1 := project_eq hb (1 - y)
  have b2 := project_eq (hb.trans_le hbb) (1 - y)
  obtain ⟨p, q⟩ := up (by linarith) (by linarith) b1 b2
  rw [C144_void ha b1] at p q
  rw [C144_void ha' b2] at q
  constructor <;> linarith

/-- The measure of non-discreteness of a design, 4 rho (1 - rho) summed over its entries. -/
def grayness (rho : List ℝ) : ℝ := (rho.map fun x => 4 * x * (1 - x)).sum

/-- **C144**: raising the parameter makes a filtered design no greyer. -/
theorem C144_grayness (h : WeightsOk n neighbors w) {beta beta' : ℝ} (hb : 0 < beta) (hbb : beta ≤ beta') {s : List ℝ}
    (hs : s.length = n) (h01 : ∀ x ∈ s, 0 ≤ x ∧ x ≤ 1) {rho rho' : List ℝ}
    (hr : heavisideVariables n beta neighbors w s = some rho)
    (hr' : heavisideVariables n beta' neighbors w s = some rho') : grayness rho' ≤ grayness rho := by
  subst hs
  have e := fun {b : ℝ} (hb : 0 < b) =>
    heaviside_eq h.toTableOk (fun i hi => (h.pos i hi).ne') hb fun k : Fin s.length => s[(k : ℕ)]
  simp only [List.ofFn_getElem] at e
  rw [e hb, Option.some.injEq] at hr
  rw [e (hb.trans_le hbb), Option.some.injEq] at hr'
  subst hr hr'
  unfold grayness
  rw [List.map_ofFn, List.map_ofFn, List.sum_ofFn, List.sum_ofFn]
  refine sum_le_sum fun i _ => ?_
  simp only [Function.comp_apply]
  have m0 : 0 ≤ meanMap s.length neighbors w (fun k : Fin s.length => s[(k : ℕ)]) i := by
    rw [meanMap_apply]
    exact le_mean h i.2 fun k : Fin s.length => (h01 _ (List.getElem_mem k.2)).1
  have m1 : meanMap s.length neighbors w (fun k : Fin s.length => s[(k : ℕ)]) i ≤ 1 := by
    rw [meanMap_apply]
    exact mean_le h i.2 fun k : Fin s.length => (h01 _ (List.getElem_mem k.2)).2
  generalize meanMap s.length neighbors w (fun k : Fin s.length => s[(k : ℕ)]) i = y at *
  obtain ⟨u, d⟩ := C144_sharpen hb hbb m0 m1 (project_eq hb y) (project_eq (hb.trans_le hbb) y)
  change 4 * projected beta' y * (1 - projected beta' y) ≤ 4 * projected beta y * (1 - projected beta y)
  rcases le_total (1 / 2) y with hy | hy
  · obtain ⟨p, q⟩ := u hy
    change 1 / 2 ≤ projected beta y at p
    change projected beta y ≤ projected beta' y at q
    nlinarith
  · obtain ⟨p, q⟩ := d hy
    change projected beta' y ≤ projected beta y at p
    change projected beta y ≤ 1 / 2 at q
    nlinarith

/-- **C144**: for large parameters the projection is the step at 1/2 after which the filter is named. -/
theorem C144_step {P : ℝ → ℝ → ℝ} (hP : ∀ beta, 0 < beta → ∀ y, project beta y = some (P beta y)) (y : ℝ) :
    Tendsto (fun beta => P beta y) atTop (𝓝 (if y < 1 / 2 then 0 else if y = 1 / 2 then 1 / 2 else 1)) := by
  have e : ∀ᶠ beta in atTop, projected beta y = P beta y := by
    filter_upwards [eventually_gt_atTop 0] with beta hb
    exact Option.some.inj ((project_eq hb y).symm.trans (hP beta hb y))
  refine Tendsto.congr' e ?_
  have hhalf : Tendsto (fun beta : ℝ => Real.tanh (beta / 2)) atTop (𝓝 1) :=
    tanh_atTop.comp (tendsto_id.atTop_div_const (by norm_num : (0 : ℝ) < 2))
  have lim : ∀ l : ℝ, Tendsto (fun beta : ℝ => Real.tanh (beta * (y - 1 / 2))) atTop (𝓝 l) →
      Tendsto (fun beta => projected beta y) atTop (𝓝 ((1 + l) / (2 * 1))) := fun l hl =>
    (hhalf.add hl).div (hhalf.const_mul 2) (by norm_num)
  rcases lt_trichotomy y (1 / 2) with hy | hy | hy
  · rw [if_pos hy]
    have : Tendsto (fun beta : ℝ => Real.tanh (beta * (y - 1 / 2))) atTop (𝓝 (-1)) := by
      have := (tanh_atTop.comp (tendsto_id.atTop_mul_const (by linarith : (0 : ℝ) < 1 / 2 - y))).neg
      refine this.congr fun beta => ?_
      show -Real.tanh (beta * (1 / 2 - y)) = _
      rw [← Real.tanh_neg]
      congr 1
      ring
    convert lim _ this using 2
    norm_num
  · rw [if_neg (by linarith), if_pos hy]
    have : Tendsto (fun beta : ℝ => Real.tanh (beta * (y - 1 / 2))) atTop (𝓝 0) := by
      simp [hy]
    convert lim _ this using 2
    norm_num
  · rw [if_neg (by linarith), if_neg (by linarith)]
    have : Tendsto (fun beta : ℝ => Real.tanh (beta * (y - 1 / 2))) atTop (𝓝 1) :=
      tanh_atTop.comp (tendsto_id.atTop_mul_const (by linarith : (0 : ℝ) < y - 1 / 2))
    convert lim _ this using 2
    norm_num

/-- **C144**: for parameters near zero the projection does nothing. -/
theorem C144_identity {P : ℝ → ℝ → ℝ} (hP : ∀ beta, 0 < beta → ∀ y, project beta y = some (P beta y)) (y : ℝ) :
    Tendsto (fun beta => P beta y) (𝓝[>] 0) (𝓝 y) := by
  have e : ∀ᶠ beta in 𝓝[>] (0 : ℝ), (Real.tanh (beta * (1 / 2)) / beta + Real.tanh (beta * (y - 1 / 2)) / beta) /
      (2 * (Real.tanh (beta * (1 / 2)) / beta)) = P beta y := by
    filter_upwards [self_mem_nhdsWithin] with beta hb
    have hb : 0 < beta := hb
    have ht := (tanh_pos (half_pos hb)).ne'
    rw [← Option.some.inj ((project_eq hb y).symm.trans (hP beta hb y)), mul_one_div]
    field_simp
  refine Tendsto.congr' e ?_
  have h := ((tanh_slope (1 / 2)).add (tanh_slope (y - 1 / 2))).div ((tanh_slope (1 / 2)).const_mul 2) (by norm_num)
  rwa [show (1 / 2 + (y - 1 / 2)) / (2 * (1 / 2)) = y by ring] at h

/-! ### Cases -/

/-- Two queries with the parameter changed between them, as in the density programs. -/
example : ∃ r, (HeavisideObj.make 3 stripNeighbors stripWeights).calls
    [.variables [0, 1, 0], .updateBeta 2, .variables [0, 1, 0], .sensitivities [0, 1, 0] [1, 1, 1]] = some r ∧
      ∀ v, some v ∈ r.2 → v.length = 3 :=
  C144_defined stripOk (by simp [CallFits])

example (o : HeavisideObj) (s : List ℝ) {r} (h : o.calls [.updateBeta 4, .variables [0, 0, 1], .variables s] = some r) :
    ∃ rho, r.2[2]? = some (some rho) ∧ heavisideVariables o.n 4 o.neighbors o.w s = some rho :=
  (C144_returns (cs := [.updateBeta 4, .variables [0, 0, 1]]) (ds := []) (c := .variables s) h).1 s rfl

example : (HeavisideObj.make 3 stripNeighbors stripWeights).calls [.updateBeta 0, .variables [0, 1, 0]] = none :=
  C144_zero _ (by simp [HeavisideObj.make]) _

/-- With the parameters 1 and 2 of the first two stages of the density programs. -/
example {rho rho' : List ℝ} (hr : heavisideVariables 3 1 stripNeighbors stripWeights [0, 1, 0] = some rho)
    (hr' : heavisideVariables 3 2 stripNeighbors stripWeights [0, 1, 0] = some rho') : grayness rho' ≤ grayness rho :=
  C144_grayness stripOk (by norm_num) (by norm_num) rfl (by simp) hr hr'

/-- A density of 3/4. -/
example {P : ℝ → ℝ → ℝ} (hP : ∀ beta, 0 < beta → ∀ y, project beta y = some (P beta y)) :
    Tendsto (fun beta => P beta (3 / 4)) atTop (𝓝 1) := by
  have := C144_step hP (3 / 4)
  rwa [if_neg (by norm_num), if_neg (by norm_num)] at this

end Pansfem
