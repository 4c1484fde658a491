/-
The loop of the level set program.
-/
import Verif.Lemmas.LevelSetUpdate

noncomputable section

namespace Pansfem

variable {P : LevelSetProgram}

/-! ### Convergence -/

theorem LevelSetSettled.congr {f g : ℕ → ℝ} {t : ℕ} {vol : ℝ} (h : ∀ k ≤ t, f k = g k)
    (hs : LevelSetSettled P f t vol) : LevelSetSettled P g t vol := by
  refine ⟨hs.1, hs.2.1, fun k h1 h2 => ?_⟩
  have := hs.2.2 k h1 h2
  rwa [h t le_rfl, h (t - k) (by omega)] at this

theorem objectiveNear_eq {objective : List ℝ} {t k : ℕ} (ht : t < objective.length) (hk : k ≤ t) :
    objectiveNear objective t k = some (decide (|objective[t]?.getD 0 - objective[t - k]?.getD 0| <
      0.01 * |objective[t]?.getD 0|)) := by
  unfold objectiveNear
  rw [if_neg (by omega), List.getElem?_eq_getElem ht, List.getElem?_eq_getElem (by omega : t - k < objective.length)]
  rfl

theorem levelsetConverged_eq (h : 4 ≤ P.nvol) {objective : List ℝ} {t : ℕ} (ht : t < objective.length) (vol : ℝ) :
    ∃ b, levelsetConverged P objective t vol = some b ∧
      (b = true ↔ LevelSetSettled P (fun k => objective[k]?.getD 0) t vol) := by
  unfold levelsetConverged
  by_cases h1 : P.nvol < t
  swap
  · rw [if_pos h1]
    exact ⟨false, rfl, by simp, fun hs => absurd hs.1 h1⟩
  rw [if_neg (not_not.2 h1)]
  by_cases h2 : |vol - P.Vmax| < 0.005
  swap
  · rw [if_pos h2]
    exact ⟨false, rfl, by simp, fun hs => absurd hs.2.1 h2⟩
  rw [if_neg (not_not.2 h2)]
  have h5 : 5 ≤ t := by
    have : (4 : ℝ) < t := lt_of_le_of_lt h h1
    exact_mod_cast this
  have hn := fun k (hk : k ≤ t) => objectiveNear_eq ht hk
  have hset : LevelSetSettled P (fun k => objective[k]?.getD 0) t vol ↔
      ∀ k ∈ [5, 4, 3, 2, 1], |objective[t]?.getD 0 - objective[t - k]?.getD 0| < 0.01 * |objective[t]?.getD 0| := by
    refine ⟨fun hs k hk => (hs.2.2 k ?_ ?_).2, fun hs => ⟨h1, h2, fun k k1 k2 => ⟨by omega, hs k ?_⟩⟩⟩
    · fin_cases hk <;> norm_num
    · fin_cases hk <;> norm_num
    · simp only [List.mem_cons, List.not_mem_nil, or_false]
      omega
  have hfold : ∀ (l : List ℕ) (ok : Bool), (∀ k ∈ l, k ≤ t) →
      l.foldlM (fun ok k => if ok then objectiveNear objective t k else some false) ok = some (ok && decide (∀ k ∈ l,
        |objective[t]?.getD 0 - objective[t - k]?.getD 0| < 0.01 * |objective[t]?.getD 0|)) := by
    intro l
    induction l with
    | nil => intro ok _; simp
    | cons k l ih =>
      intro ok hl
      rw [List.foldlM_cons]
      cases ok with
      | false =>
        simp only [Option.bind_eq_bind, Bool.false_eq_true, if_false, Option.bind_some]
        rw [ih false fun k hk => hl k (List.mem_cons_of_mem _ hk)]
        simp
      | true =>
        rw [if_pos rfl, hn k (hl k (by simp))]
        simp only [Option.bind_eq_bind, Option.bind_some]
        rw [ih _ fun k hk => hl k (List.mem_cons_of_mem _ hk)]
        simp
  refine ⟨_, hfold [5, 4, 3, 2, 1] true (by intro k hk; fin_cases hk <;> omega), ?_⟩
  rw [hset]
  simp

/-! ### The loop -/

theorem isShape_map (l : List (List ℕ)) (p : List ℕ → Prop) [DecidablePred p] :
    IsShape l.length (l.map fun e => if p e then (0 : ℝ) else 1) := by
  refine ⟨by simp, fun a ha => ?_⟩
  obtain ⟨e, -, rfl⟩ := List.mem_map.1 ha
  split_ifs <;> simp

theorem clamp_abs (a : ℝ) : |max (min 1 a) (-1)| ≤ 1 := by
  rw [abs_le]
  exact ⟨le_max_right _ _, max_le (min_le_left _ _) (by norm_num)⟩

/-- What holds of the rest of a run: `pre` are the objectives before. -/
structure LevelSetRest (P : LevelSetProgram) (left : ℕ) (pre : List ℝ) (phi : List (Vec ℝ)) (str : List ℝ)
    (r : List LevelSetPass × Ending) : Prop where
  count : r.1.length ≤ left
  numbered : ∀ i (h : i < r.1.length), r.1[i].t = pre.length + i
  start : 0 < left → ∃ q, r.1.head? = some q ∧ q.phi = phi ∧ q.str = str
  passes : ∀ q ∈ r.1, (q.phi.length = P.x.length ∧ ∀ v ∈ q.phi, ∃ a, v = ⟨[a]⟩ ∧ |a| ≤ 1) ∧
      IsShape P.elements.length q.str ∧ q.value.Sound P q.t q.str
  updates : List.IsChain (LevelSetStep P) r.1
  settles : ∀ i (h : i < r.1.length), LevelSetSettled P
      (fun k => (pre ++ r.1.map fun q => q.value.objective)[k]?.getD 0) (pre.length + i) r.1[i].value.vol ↔
        i + 1 = r.1.length ∧ r.2 = .optimised
  exhausted : r.2 = .exhausted → r.1.length = left
  stalls : r.2 = .undefined ↔ ∃ q, r.1.getLast? = some q ∧ r.2 ≠ .optimised ∧ LevelSetStalls P q
  returns : r.2 ≠ .stuck
  empty : r.1 = [] → r.2 = .exhausted

theorem levelsetLoop_sound (h : P.Ok) (left : ℕ) (pre : List ℝ) (phi : List (Vec ℝ)) (str : List ℝ)
    (hphi : phi.length = P.x.length ∧ ∀ v ∈ phi, ∃ a, v = ⟨[a]⟩ ∧ |a| ≤ 1) (hs : IsShape P.elements.length str)
    {r : List LevelSetPass × Ending}
    (hr : levelsetLoop P 1 left pre.length (pre ++ List.replicate left 0) phi str = r) :
    LevelSetRest P left pre phi str r := by
  induction left generalizing pre phi str r with
  | zero =>
    subst hr
    constructor <;> simp [levelsetLoop]
  | succ left ih =>
    obtain ⟨v, v1, v2⟩ := levelsetEvaluate_sound h pre.length hs
    have hsc : ScalarField P.x.length phi := ⟨hphi.1, fun w hw => (hphi.2 w hw).imp fun a ha => ha.1⟩
    have hobj : (pre ++ List.replicate (left + 1) (0 : ℝ)).set pre.length v.objective =
        (pre ++ [v.objective]) ++ List.replicate left 0 := by
      rw [List.set_append_right _ _ le_rfl, Nat.sub_self, List.replicate_succ]
      simp
    obtain ⟨b, b1, b2⟩ := levelsetConverged_eq (P := P) h.passes
      (objective := (pre ++ [v.objective]) ++ List.replicate left 0) (t := pre.length) (by simp) v.vol
    unfold levelsetLoop at hr
    have h0 : (pre ++ List.replicate (left + 1) (0 : ℝ))[pre.length]? = some 0 := by simp
    simp only [h0, Option.bind_eq_bind, Option.bind_some, v1, hobj, b1] at hr
    have hset : ∀ rest : List ℝ, LevelSetSettled P (fun k => (pre ++ v.objective :: rest)[k]?.getD 0) pre.length v.vol ↔
        b = true := by
      intro rest
      rw [b2]
      have : ∀ k ≤ pre.length, (pre ++ v.objective :: rest)[k]?.getD 0 =
          ((pre ++ [v.objective]) ++ List.replicate left 0)[k]?.getD 0 := by
        intro k hk
        rw [List.append_assoc]
        rcases hk.lt_or_eq with hk | rfl
        · rw [List.getElem?_append_left hk, List.getElem?_append_left hk]
        · simp
      exact ⟨fun hs => hs.congr this, fun hs => hs.congr fun k hk => (this k hk).symm⟩
    have one : ∀ e : Ending, (e = .optimised ↔ b = true) → (e = .undefined ↔ e ≠ .optimised ∧ LevelSetStalls P
        ⟨pre.length, phi, str, v⟩) → (e = .exhausted → left = 0) → e ≠ .stuck →
        LevelSetRest P (left + 1) pre phi str ([⟨pre.length, phi, str, v⟩], e) := by
      intro e e1 e2 e3 e4
      refine ⟨by simp, ?_, fun _ => ⟨_, rfl, rfl, rfl⟩, ?_, by simp, ?_, fun he => by simp [e3 he], ?_, e4, by simp⟩
      · intro i hi
        obtain rfl : i = 0 := by simpa using hi
        rfl
      · intro q hq
        obtain rfl := List.mem_singleton.1 hq
        exact ⟨hphi, hs, v2⟩
      · intro i hi
        obtain rfl : i = 0 := by simpa using hi
        dsimp only
        rw [e1, ← hset []]
        simp
      · simpa using e2
    cases b with
    | true =>
      subst hr
      exact one _ (by simp) (by simp) (by simp) (by simp)
    | false =>
      obtain ⟨items, q1, q2, q3⟩ := levelsetUpdate_spec h hsc v2
      by_cases hst : ∀ p ∈ freeDofs (freeTable P.x.length 1) P.phifixed,
          timeResidual items P.dt 1 (bordered P phi) 0 p.1 p.2 = 0
      · rw [q2 hst] at hr
        subst hr
        exact one _ (by simp) (by simpa using ⟨items, q1, hst⟩) (by simp) (by simp)
      · have hst' : ¬ LevelSetStalls P ⟨pre.length, phi, str, v⟩ := by
          rintro ⟨items', q1', h'⟩
          obtain rfl := Option.some.inj (q1.symm.trans q1')
          exact hst h'
        push Not at hst
        obtain ⟨raw, phi', w1, w2, w3, w4⟩ := q3 hst
        have hphi' : ScalarField P.x.length phi' := by rw [w4]; exact scalar_ofFn fun m => max (min 1 (valOf raw m 0)) (-1)
        have hb : phi'.length = P.x.length ∧ ∀ v ∈ phi', ∃ a, v = ⟨[a]⟩ ∧ |a| ≤ 1 := by
          refine ⟨hphi'.1, fun w hw => ?_⟩
          rw [w4] at hw
          obtain ⟨m, rfl⟩ := List.mem_ofFn.1 hw
          exact ⟨_, rfl, clamp_abs _⟩
        rw [w1] at hr
        simp only [Option.bind_some, shapeOf_eq h hphi', Option.pure_def] at hr
        have hsh := isShape_map P.elements fun e => (e.map fun m => valOf phi' m 0).sum / (e.length : ℝ) < 0
        have hlen : pre.length + 1 = (pre ++ [v.objective]).length := by simp
        rw [hlen] at hr
        have R := ih (pre ++ [v.objective]) phi' _ hb hsh rfl
        generalize levelsetLoop P 1 left _ _ _ _ = rest at hr R
        have hstep : ∀ q ∈ rest.1.head?, LevelSetStep P ⟨pre.length, phi, str, v⟩ q := by
          intro q hq
          have hl : 0 < left := by
            have := R.count
            cases hrest : rest.1 with
            | nil => rw [hrest] at hq; simp at hq
            | cons a l => rw [hrest] at this; simp at this; omega
          obtain ⟨q', c1, c2, c3⟩ := R.start hl
          rw [c1] at hq
          obtain rfl := Option.some.inj hq
          exact ⟨⟨items, valOf raw, q1, w2, w3, by rw [c2, w4]⟩, by rw [c3, c2]⟩
        subst hr
        have hnil : rest.1 = [] → left = 0 ∧ rest.2 = .exhausted := by
          intro hn
          have hl : left = 0 := by
            by_contra hl
            obtain ⟨q, c1, -⟩ := R.start (Nat.pos_of_ne_zero hl)
            rw [hn] at c1
            simp at c1
          exact ⟨hl, R.empty hn⟩
        by_cases hn : rest.1 = []
        · obtain ⟨n1, n2⟩ := hnil hn
          rw [hn, n2]
          exact one _ (by simp) (by simpa using hst') (fun _ => n1) (by simp)
        · refine ⟨?_, ?_, fun _ => ⟨_, rfl, rfl, rfl⟩, ?_, ?_, ?_, ?_, ?_, R.returns, by simp⟩
          · simpa using R.count
          · intro i hi
            cases i with
            | zero => rfl
            | succ i =>
              simp only [List.getElem_cons_succ]
              rw [R.numbered i (by simpa using hi)]
              simp
              omega
          · intro q hq
            rcases List.mem_cons.1 hq with rfl | hq
            · exact ⟨hphi, hs, v2⟩
            · exact R.passes q hq
          · exact List.isChain_cons.2 ⟨hstep, R.updates⟩
          · intro i hi
            cases i with
            | zero =>
              have h1 := hset (rest.1.map fun q => q.value.objective)
              simp only [List.map_cons, List.getElem_cons_zero, add_zero]
              rw [h1]
              simp [hn]
            | succ i =>
              have h1 := R.settles i (by simpa using hi)
              simp only [List.map_cons, List.getElem_cons_succ, List.length_cons, List.append_assoc, List.length_append,
                List.length_nil, List.singleton_append, zero_add] at h1 ⊢
              rw [show pre.length + (i + 1) = pre.length + 1 + i by omega, h1]
              simp
          · intro he
            simpa using R.exhausted he
          · dsimp only
            rw [R.stalls, List.getLast?_cons, List.getLast?_eq_some_getLast hn]
            simp

end Pansfem
