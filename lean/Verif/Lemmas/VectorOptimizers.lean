/-
The inner loop on vectors does what the inner loop of fixed size does.
-/
import Verif.Spec.VectorOptimizers
import Verif.Lemmas.Dense
import Verif.Lemmas.Element

namespace Pansfem

noncomputable section

variable {n m : ℕ}

theorem bindS {α β : Type} {A : Option α} {a : α} {F : α → Option β} {r : Option β} (h : A = some a) (h2 : F a = r) :
    (A >>= F) = r := by rw [h]; exact h2

theorem vecOf_eq {k : ℕ} {f : ℕ → Option ℝ} {g : Fin k → ℝ} (h : ∀ i : Fin k, f i = some (g i)) :
    vecOf k f = some (List.ofFn g) := range_mapM h

theorem tabOf_eq {r k : ℕ} {f : ℕ → ℕ → Option ℝ} {g : Fin r → Fin k → ℝ}
    (h : ∀ (i : Fin r) (j : Fin k), f i j = some (g i j)) :
    tabOf r k f = some (List.ofFn fun i => List.ofFn (g i)) := range_mapM fun i => vecOf_eq (h i)

theorem sumFrom_eq {k : ℕ} {s : ℝ} {f : ℕ → Option ℝ} {g : Fin k → ℝ} (h : ∀ i : Fin k, f i = some (g i)) :
    sumFrom k s f = some (s + ∑ i, g i) := by
  unfold sumFrom
  induction k with
  | zero => simp
  | succ k ih =>
    rw [List.range_succ, List.foldlM_append, ih (g := fun i => g i.castSucc) fun i => h i.castSucc]
    have := h (Fin.last k)
    simp only [Fin.val_last] at this
    simp [this, Fin.sum_univ_castSucc, add_assoc]

theorem foldAdd_eq {k : ℕ} {s : ℝ} {f : ℕ → ℝ → Option ℝ} {g : Fin k → ℝ} (h : ∀ (i : Fin k) t, f i t = some (t + g i)) :
    (List.range k).foldlM (fun t i => f i t) s = some (s + ∑ i, g i) := by
  induction k with
  | zero => simp
  | succ k ih =>
    rw [List.range_succ, List.foldlM_append, ih (g := fun i => g i.castSucc) fun i t => h i.castSucc t]
    have := h (Fin.last k)
    simp only [Fin.val_last] at this
    simp [this, Fin.sum_univ_castSucc, add_assoc]

theorem ofFn_get {α : Type} {k : ℕ} (f : Fin k → α) (i : Fin k) : (List.ofFn f)[(i : ℕ)]? = some (f i) := by
  simp

theorem ent_ofFn {r k : ℕ} (f : Fin r → Fin k → ℝ) (i : Fin r) (j : Fin k) :
    ent (List.ofFn fun i => List.ofFn (f i)) i j = some (f i j) := by
  unfold ent
  rw [ofFn_get]
  exact ofFn_get (f i) j

theorem loopMaxV_eq {k : ℕ} {f : ℕ → Option ℝ} {g : Fin k → ℝ} (h : ∀ i : Fin k, f i = some (g i)) :
    loopMaxV k f = some (loopMax g) := by
  unfold loopMaxV loopMax
  generalize (0 : ℝ) = s
  induction k generalizing s f with
  | zero => simp
  | succ k ih =>
    have h0 := h 0
    simp only [Fin.val_zero] at h0
    have e : ∀ (F : ℝ → ℕ → Option ℝ) (l : List ℕ) (s : ℝ),
        (l.map Nat.succ).foldlM F s = l.foldlM (fun t i => F t (i + 1)) s := by
      intro F l
      induction l with
      | nil => intro s; rfl
      | cons a l ih => intro s; rw [List.map_cons, List.foldlM_cons, List.foldlM_cons]; simp only [ih]
    rw [List.range_succ_eq_map, List.foldlM_cons, List.finRange_succ, List.foldl_cons, List.foldl_map, h0]
    refine bindS (a := if s < g 0 then g 0 else s) rfl ?_
    rw [e]
    exact ih (f := fun i => f (i + 1)) (g := fun i => g i.succ) (fun i => by simpa using h i.succ) _

/-- Evaluates the body of a loop: entries that are there and divisions by what is not zero. -/
local macro "body" "[" ls:Lean.Parser.Tactic.simpLemma,* "]" : tactic =>
  `(tactic| simp only [Option.bind_eq_bind, Option.bind_some, Option.pure_def, ofFn_get, ent_ofFn, div?, if_false, $ls,*])

/-- The vectors of a point. -/
def PtV.of (w : Pt n m) : PtV where
  x := List.ofFn w.x
  y := List.ofFn w.y
  z := w.z
  lam := List.ofFn w.lam
  gsi := List.ofFn w.gsi
  ita := List.ofFn w.ita
  mu := List.ofFn w.mu
  zeta := w.zeta
  s := List.ofFn w.s

/-- The approximating functions on vectors are those of the basis where no divisor is zero. -/
structure BasisSim (B' : BasisV) (B : Basis n) : Prop where
  val : ∀ (j : Fin n) p q x, B.ok j x → B'.val j p q x = some (B.val j p q x)
  slope : ∀ (j : Fin n) p q x, B.ok j x → B'.slope j p q x = some (B.slope j p q x)
  curv : ∀ (j : Fin n) p q x, B.ok j x → B'.curv j p q x = some (B.curv j p q x)

/-- The vectors hold the subproblem. -/
structure SubSim (P' : SubV) (P : Sub n m) : Prop where
  basis : BasisSim P'.basis P.basis
  alpha : Holds P'.alpha P.alpha
  beta : Holds P'.beta P.beta
  p0 : Holds P'.p0 P.p0
  q0 : Holds P'.q0 P.q0
  p : ∀ (i : Fin m) (j : Fin n), ent P'.p i j = some (P.p i j)
  q : ∀ (i : Fin m) (j : Fin n), ent P'.q i j = some (P.q i j)
  b : Holds P'.b P.b
  a0 : P'.a0 = P.a0
  a : Holds P'.a P.a
  c : Holds P'.c P.c
  d : Holds P'.d P.d

/-- The subproblem as vectors. -/
def SubV.of (B : BasisV) (a0 : ℝ) (a c d : List ℝ) (P : Sub n m) : SubV where
  basis := B
  alpha := List.ofFn P.alpha
  beta := List.ofFn P.beta
  p0 := List.ofFn P.p0
  q0 := List.ofFn P.q0
  p := List.ofFn fun i => List.ofFn (P.p i)
  q := List.ofFn fun i => List.ofFn (P.q i)
  b := List.ofFn P.b
  a0 := a0
  a := a
  c := c
  d := d

theorem ofFn_const {k : ℕ} (a : ℝ) : List.replicate k a = List.ofFn fun _ : Fin k => a := by
  simp

variable {P : Sub n m} {P' : SubV}

theorem ipStartV_eq (h : SubSim P' P) {w : Pt n m} (hs : ipStart P = some w) : ipStartV n m P' = some (PtV.of w) := by
  unfold ipStart at hs
  simp only [] at hs
  split at hs
  swap
  · exact nomatch hs
  rename_i hd
  obtain rfl := Option.some.inj hs
  have ha := h.alpha
  have hb := h.beta
  have hc := h.c
  unfold Holds at ha hb hc
  unfold ipStartV
  refine bindS (vecOf_eq (g := fun i => max 1 (0.5 * P.c i)) fun i => by body [hc i]) ?_
  refine bindS (vecOf_eq (g := fun j => 0.5 * (P.alpha j + P.beta j)) fun j => by body [ha j, hb j]) ?_
  refine bindS (vecOf_eq (g := fun j => max 1 (1 / (0.5 * (P.alpha j + P.beta j) - P.alpha j))) fun j => by
    body [ha j, (hd j).1]) ?_
  refine bindS (vecOf_eq (g := fun j => max 1 (1 / (P.beta j - 0.5 * (P.alpha j + P.beta j)))) fun j => by
    body [hb j, (hd j).2]) ?_
  simp only [ofFn_const]
  rfl

theorem combineV_eq {v0 : List ℝ} {v : List (List ℝ)} {f0 : Fin n → ℝ} {f : Fin m → Fin n → ℝ} (h0 : Holds v0 f0)
    (hv : ∀ i j, ent v (i : Fin m) (j : Fin n) = some (f i j)) (lam : Fin m → ℝ) :
    combineV n m v0 v (List.ofFn lam) = some (List.ofFn fun j => f0 j + ∑ i, lam i * f i j) :=
  vecOf_eq fun j => bindS (h0 j) (sumFrom_eq fun i => by rw [ofFn_get, hv]; rfl)

theorem innerA_eq (h : SubSim P' P) (lam : Fin m → ℝ) : innerA P' (List.ofFn lam) = some (∑ i, lam i * P.a i) := by
  unfold innerA
  rw [List.length_ofFn, sumFrom_eq (g := fun i => lam i * P.a i), zero_add]
  intro i
  rw [ofFn_get, h.a i]
  rfl

/-- The coefficients as vectors. -/
def CoefV.of (P : Sub n m) (w : Pt n m) (eps : ℝ) : CoefV where
  G := List.ofFn fun i => List.ofFn (ipG P w i)
  Dx := List.ofFn (ipDx P w)
  delx := List.ofFn (ipDelx P w eps)
  Dy := List.ofFn (ipDy P w)
  dely := List.ofFn (ipDely P w eps)
  delz := ipDelz P w eps
  Dly := List.ofFn (ipDly P w)
  delly := List.ofFn (ipDelly P w eps)

theorem coefV_eq (h : SubSim P' P) {w : Pt n m} (hd : Divisible P w) (eps : ℝ) :
    coefV n m P' (PtV.of w) eps = some (CoefV.of P w eps) := by
  obtain ⟨hn, hm, hz⟩ := hd
  have ha := h.alpha
  have hb := h.beta
  have hc := h.c
  have hdd := h.d
  have haa := h.a
  have hbb := h.b
  unfold Holds at ha hb hc hdd haa hbb
  have hp := h.p
  have hq := h.q
  unfold coefV
  simp only [PtV.of]
  refine bindS (combineV_eq h.p0 hp _) ?_
  refine bindS (combineV_eq h.q0 hq _) ?_
  refine bindS (tabOf_eq (g := ipG P w) fun i j => by
    body [hp, hq, h.basis.slope j _ _ _ (hn j).1]; rfl) ?_
  refine bindS (vecOf_eq (g := ipDx P w) fun j => by
    body [ha j, hb j, h.basis.curv j _ _ _ (hn j).1, (hn j).2.1, (hn j).2.2.1]; rfl) ?_
  refine bindS (vecOf_eq (g := ipDelx P w eps) fun j => by
    body [ha j, hb j, h.basis.slope j _ _ _ (hn j).1, (hn j).2.1, (hn j).2.2.1]; rfl) ?_
  refine bindS (vecOf_eq (g := ipDy P w) fun i => by body [hdd i, (hm i).1]; rfl) ?_
  refine bindS (vecOf_eq (g := fun i => w.s i / w.lam i) fun i => by body [(hm i).2.1]) ?_
  refine bindS (vecOf_eq (g := ipDely P w eps) fun i => by body [hc i, hdd i, (hm i).1]; rfl) ?_
  refine bindS (div?_eq_some.2 ⟨hz, rfl⟩) ?_
  refine bindS (innerA_eq h _) ?_
  refine bindS (vecOf_eq (g := ipDellam P w eps) fun i => by
    body [haa i, hbb i, (hm i).2.1]
    exact sumFrom_eq fun j => by body [hp, hq, h.basis.val j _ _ _ (hn j).1]) ?_
  refine bindS (vecOf_eq (g := ipDly P w) fun i => by body [(hm i).2.2.1]; rfl) ?_
  refine bindS (vecOf_eq (g := ipDelly P w eps) fun i => by body [(hm i).2.2.1]; rfl) ?_
  simp only [h.a0]
  rfl

theorem sysMatrix_ofFn {k : ℕ} (A : Matrix (Fin k) (Fin k) ℝ) :
    sysMatrix (List.ofFn fun i => List.ofFn (A i)) = arr2 A := by
  funext i j
  unfold sysMatrix arr2
  by_cases h : i < k ∧ j < k
  · rw [dif_pos h]
    have := ent_ofFn A ⟨i, h.1⟩ ⟨j, h.2⟩
    simp only at this
    rw [this]; rfl
  · rw [dif_neg h]
    unfold ent
    by_cases hi : i < k
    · have hj : ¬ j < k := fun hj => h ⟨hi, hj⟩
      simp [hi, hj]
    · simp [hi]

theorem sysRhs_ofFn {k : ℕ} (b : Fin k → ℝ) : sysRhs (List.ofFn b) = arr1 b := by
  funext i
  unfold sysRhs arr1
  by_cases h : i < k <;> simp [h]

theorem dualSystemV_eq (h : SubSim P' P) {w : Pt n m} (hd : Divisible P w) (eps : ℝ) :
    dualSystemV n m P' (PtV.of w) (CoefV.of P w eps) =
      some (List.ofFn fun i => List.ofFn (dualMatrix P w i), List.ofFn (dualRhs P w eps)) := by
  obtain ⟨hn, hm, hz⟩ := hd
  have haa := h.a
  unfold Holds at haa
  unfold dualSystemV
  refine bindS (tabOf_eq (g := dualMatrix P w) fun ii jj => ?_) (bindS (vecOf_eq (g := dualRhs P w eps) fun ii => ?_) rfl)
  · refine Fin.lastCases ?_ (fun i => ?_) ii
    · refine Fin.lastCases ?_ (fun j => ?_) jj
      · simp only [dualMatrix, Fin.lastCases_last, Fin.val_last, lt_irrefl, if_false, PtV.of, div?, hz]
      · simp only [dualMatrix, Fin.lastCases_last, Fin.lastCases_castSucc, Fin.val_last, lt_irrefl, if_false,
          Fin.val_castSucc, j.isLt, if_true, haa j]
    · refine Fin.lastCases ?_ (fun j => ?_) jj
      · simp only [dualMatrix, Fin.lastCases_last, Fin.lastCases_castSucc, Fin.val_last, lt_irrefl, if_false,
          Fin.val_castSucc, i.isLt, if_true, haa i]
      · simp only [dualMatrix, Fin.lastCases_castSucc, Fin.val_castSucc, i.isLt, j.isLt, if_true]
        refine bindS (sumFrom_eq (g := fun k => ipG P w i k * ipG P w j k / ipDx P w k) fun k => by
          simp only [CoefV.of]; body [(hn k).2.2.2]) ?_
        by_cases hij : i = j
        · subst hij
          simp only [if_true, CoefV.of]
          body [zero_add]
        · have : ¬ (i : ℕ) = j := fun e => hij (Fin.ext e)
          simp only [hij, this, if_false, zero_add, add_zero]
          rfl
  · refine Fin.lastCases ?_ (fun i => ?_) ii
    · simp only [dualRhs, Fin.lastCases_last, Fin.val_last, lt_irrefl, if_false, CoefV.of]
      rfl
    · simp only [dualRhs, Fin.lastCases_castSucc, Fin.val_castSucc, i.isLt, if_true, CoefV.of]
      refine bindS (ofFn_get _ i) ?_
      rw [sumFrom_eq (g := fun k => -(ipG P w i k * ipDelx P w eps k / ipDx P w k)) fun k => by
        body [(hn k).2.2.2], Finset.sum_neg_distrib, sub_eq_add_neg]

theorem primalSystemV_eq (h : SubSim P' P) {w : Pt n m} (hd : Divisible P w) (eps : ℝ) :
    primalSystemV n m P' (PtV.of w) (CoefV.of P w eps) =
      some (List.ofFn fun i => List.ofFn (primalMatrix P w i), List.ofFn (primalRhs P w eps)) := by
  obtain ⟨hn, hm, hz⟩ := hd
  have haa := h.a
  unfold Holds at haa
  unfold primalSystemV
  refine bindS (tabOf_eq (g := primalMatrix P w) fun ii jj => ?_)
    (bindS (vecOf_eq (g := primalRhs P w eps) fun ii => ?_) rfl)
  · refine Fin.lastCases ?_ (fun i => ?_) ii
    · refine Fin.lastCases ?_ (fun j => ?_) jj
      · simp only [primalMatrix, Fin.lastCases_last, Fin.val_last, lt_irrefl, if_false]
        refine bindS (sumFrom_eq (g := fun _ => ∑ k, P.a k * P.a k / ipDly P w k) fun i => ?_) ?_
        · rw [sumFrom_eq (g := fun k => P.a k * P.a k / ipDly P w k) fun k => by
            simp only [CoefV.of]; body [haa k, (hm k).2.2.2], zero_add]
        · simp only [PtV.of]
          body [hz, zero_add]
      · simp only [primalMatrix, Fin.lastCases_last, Fin.lastCases_castSucc, Fin.val_last, lt_irrefl, if_false,
          Fin.val_castSucc, j.isLt, if_true]
        rw [sumFrom_eq (g := fun k => -(ipG P w k j * P.a k / ipDly P w k)) fun k => by
          simp only [CoefV.of]; body [haa k, (hm k).2.2.2], zero_add, Finset.sum_neg_distrib]
    · refine Fin.lastCases ?_ (fun j => ?_) jj
      · simp only [primalMatrix, Fin.lastCases_last, Fin.lastCases_castSucc, Fin.val_last, lt_irrefl, if_false,
          Fin.val_castSucc, i.isLt, if_true]
        rw [sumFrom_eq (g := fun k => -(ipG P w k i * P.a k / ipDly P w k)) fun k => by
          simp only [CoefV.of]; body [haa k, (hm k).2.2.2], zero_add, Finset.sum_neg_distrib]
      · simp only [primalMatrix, Fin.lastCases_castSucc, Fin.val_castSucc, i.isLt, j.isLt, if_true]
        refine bindS (sumFrom_eq (g := fun k => ipG P w k i * ipG P w k j / ipDly P w k) fun k => by
          simp only [CoefV.of]; body [(hm k).2.2.2]) ?_
        by_cases hij : i = j
        · subst hij
          simp only [if_true, CoefV.of]
          body [zero_add]
        · have : ¬ (i : ℕ) = j := fun e => hij (Fin.ext e)
          simp only [hij, this, if_false, zero_add, add_zero]
          rfl
  · refine Fin.lastCases ?_ (fun i => ?_) ii
    · simp only [primalRhs, Fin.lastCases_last, Fin.val_last, lt_irrefl, if_false, CoefV.of]
      exact sumFrom_eq fun k => by body [haa k, (hm k).2.2.2]
    · simp only [primalRhs, Fin.lastCases_castSucc, Fin.val_castSucc, i.isLt, if_true, CoefV.of]
      refine bindS (ofFn_get _ i) ?_
      rw [sumFrom_eq (g := fun k => -(ipG P w k i * ipDelly P w eps k / ipDly P w k)) fun k => by
        body [(hm k).2.2.2], Finset.sum_neg_distrib, sub_eq_add_neg]

theorem reducedV_eq (h : SubSim P' P) {w : Pt n m} (hd : Divisible P w) {eps : ℝ}
    {r : (Fin n → ℝ) × (Fin m → ℝ) × ℝ} (hr : reducedDirection P w eps = some r) :
    reducedV n m P' (PtV.of w) (CoefV.of P w eps) = some (List.ofFn r.1, List.ofFn r.2.1, r.2.2) := by
  have haa := h.a
  unfold Holds at haa
  unfold reducedDirection at hr
  unfold reducedV
  by_cases hmn : m < n
  · rw [if_pos hmn] at hr ⊢
    obtain ⟨v, hv, hr⟩ := Option.bind_eq_some_iff.1 hr
    obtain rfl := Option.some.inj hr
    refine bindS (dualSystemV_eq h hd eps) ?_
    obtain ⟨hn, hm, hz⟩ := hd
    simp only []
    rw [sysMatrix_ofFn, sysRhs_ofFn]
    refine bindS hv ?_
    refine bindS (vecOf_eq (g := fun i : Fin m => v i) fun i => rfl) ?_
    refine bindS (vecOf_eq (g := fun j => -ipDelx P w eps j / ipDx P w j - ∑ i, ipG P w i j * v i / ipDx P w j)
      fun j => ?_) rfl
    simp only [CoefV.of]
    body [(hn j).2.2.2]
    rw [sumFrom_eq (g := fun i => -(ipG P w i j * v i / ipDx P w j)) fun i => by
      body [(hn j).2.2.2], Finset.sum_neg_distrib, sub_eq_add_neg]
  · rw [if_neg hmn] at hr ⊢
    obtain ⟨v, hv, hr⟩ := Option.bind_eq_some_iff.1 hr
    obtain rfl := Option.some.inj hr
    refine bindS (primalSystemV_eq h hd eps) ?_
    obtain ⟨hn, hm, hz⟩ := hd
    simp only []
    rw [sysMatrix_ofFn, sysRhs_ofFn]
    refine bindS hv ?_
    refine bindS (vecOf_eq (g := fun j : Fin n => v j) fun i => rfl) ?_
    refine bindS (vecOf_eq (g := fun i => -P.a i * v n / ipDly P w i + ipDelly P w eps i / ipDly P w i +
      ∑ j : Fin n, ipG P w i j * v j / ipDly P w i) fun i => ?_) rfl
    simp only [CoefV.of]
    body [haa i, (hm i).2.2.2]
    exact sumFrom_eq fun j => by body [(hm i).2.2.2]

theorem newtonV_eq (h : SubSim P' P) {w d : Pt n m} {eps : ℝ} (hw : newton P w eps = some d) :
    newtonV n m P' (PtV.of w) eps = some (PtV.of d) := by
  unfold newton at hw
  by_cases hd : Divisible P w
  swap
  · rw [if_neg hd] at hw; exact nomatch hw
  rw [if_pos hd] at hw
  obtain ⟨r, hr, hw⟩ := Option.bind_eq_some_iff.1 hw
  obtain rfl := Option.some.inj hw
  unfold newtonV
  refine bindS (coefV_eq h hd eps) (bindS (reducedV_eq h hd hr) ?_)
  obtain ⟨hn, hm, hz⟩ := hd
  have ha := h.alpha
  have hb := h.beta
  unfold Holds at ha hb
  simp only [PtV.of, CoefV.of]
  set e := expandDirection P w eps r.1 r.2.1 r.2.2 with he
  refine bindS (vecOf_eq (g := e.y) fun i => by body [(hm i).2.2.1]; rfl) ?_
  refine bindS (vecOf_eq (g := e.mu) fun i => by body [(hm i).1]; rfl) ?_
  refine bindS (vecOf_eq (g := e.s) fun i => by body [(hm i).2.1]; rfl) ?_
  refine bindS (vecOf_eq (g := e.gsi) fun j => by body [ha j, (hn j).2.1]; rfl) ?_
  refine bindS (vecOf_eq (g := e.ita) fun j => by body [hb j, (hn j).2.2.1]; rfl) ?_
  body [hz]
  rfl

theorem stepLengthV_eq (h : SubSim P' P) {w d : Pt n m} {tau : ℝ} (hs : stepLength P w d = some tau) :
    stepLengthV n m P' (PtV.of w) (PtV.of d) = some tau := by
  unfold stepLength at hs
  by_cases hd : StepDivisible P w
  swap
  · rw [if_neg hd] at hs; exact nomatch hs
  rw [if_pos hd] at hs
  obtain rfl := Option.some.inj hs
  obtain ⟨hn, hm, hz, hze⟩ := hd
  have ha := h.alpha
  have hb := h.beta
  unfold Holds at ha hb
  unfold stepLengthV
  simp only [PtV.of]
  refine bindS (loopMaxV_eq (g := txmaxj P w d) fun j => by
    body [ha j, hb j, (hn j).1, (hn j).2.1, (hn j).2.2.1, (hn j).2.2.2]; rfl) ?_
  refine bindS (loopMaxV_eq (g := tymaxi w d) fun i => by
    body [(hm i).1, (hm i).2.1, (hm i).2.2.1, (hm i).2.2.2]; rfl) ?_
  refine bindS (div?_eq_some.2 ⟨hz, rfl⟩) (bindS (div?_eq_some.2 ⟨hze, rfl⟩) (div?_eq_some.2 ⟨?_, rfl⟩))
  have : (1 : ℝ) ≤ max (max (max 1 (loopMax (txmaxj P w d))) (loopMax (tymaxi w d)))
      (max (-1.01 * d.z / w.z) (-1.01 * d.zeta / w.zeta)) :=
    le_max_of_le_left (le_max_of_le_left (le_max_left _ _))
  linarith

theorem kktNormV_eq (h : SubSim P' P) {w : Pt n m} {eps v : ℝ} (hk : kktNorm P w eps = some v) :
    kktNormV n m P' (PtV.of w) eps = some v := by
  unfold kktNorm at hk
  by_cases hd : ∀ j, P.basis.ok j (w.x j)
  swap
  · rw [if_neg hd] at hk; exact nomatch hk
  rw [if_pos hd] at hk
  obtain rfl := Option.some.inj hk
  have ha := h.alpha
  have hb := h.beta
  have hc := h.c
  have hdd := h.d
  have haa := h.a
  have hbb := h.b
  unfold Holds at ha hb hc hdd haa hbb
  have hp := h.p
  have hq := h.q
  unfold kktNormV
  simp only [PtV.of]
  refine bindS (combineV_eq h.p0 hp _) (bindS (combineV_eq h.q0 hq _) ?_)
  refine bindS (vecOf_eq (g := fun i => ∑ j, P.basis.val j (P.p i j) (P.q i j) (w.x j)) fun i => by
    rw [sumFrom_eq (g := fun j => P.basis.val j (P.p i j) (P.q i j) (w.x j)) fun j => by
      body [hp, hq, h.basis.val j _ _ _ (hd j)], zero_add]) ?_
  refine bindS (foldAdd_eq (g := fun j =>
    ((P.basis.slope j (plambda P w.lam j) (qlambda P w.lam j) (w.x j) - w.gsi j + w.ita j) ^ 2 +
      (w.gsi j * (w.x j - P.alpha j) - eps) ^ 2 + (w.ita j * (P.beta j - w.x j) - eps) ^ 2)) fun j t => by
    body [ha j, hb j, h.basis.slope j _ _ _ (hd j), ← add_assoc]; rfl) ?_
  refine bindS (foldAdd_eq (g := fun i => ((P.c i + P.d i * w.y i - w.lam i - w.mu i) ^ 2 +
      ((∑ j, P.basis.val j (P.p i j) (P.q i j) (w.x j)) - P.a i * w.z - w.y i + w.s i - P.b i) ^ 2 +
      (w.mu i * w.y i - eps) ^ 2 + (w.lam i * w.s i - eps) ^ 2)) fun i t => by
    body [haa i, hbb i, hc i, hdd i, ← add_assoc]) ?_
  refine bindS (innerA_eq h _) ?_
  simp only [h.a0, zero_add]
  rfl

theorem stepV_eq (w d : Pt n m) (tau : ℝ) : stepV n m (PtV.of w) (PtV.of d) tau = some (PtV.of (w.step d tau)) := by
  unfold stepV
  simp only [PtV.of]
  refine bindS (vecOf_eq (g := (w.step d tau).x) fun j => by body []; rfl) ?_
  refine bindS (vecOf_eq (g := (w.step d tau).gsi) fun j => by body []; rfl) ?_
  refine bindS (vecOf_eq (g := (w.step d tau).ita) fun j => by body []; rfl) ?_
  refine bindS (vecOf_eq (g := (w.step d tau).y) fun j => by body []; rfl) ?_
  refine bindS (vecOf_eq (g := (w.step d tau).lam) fun j => by body []; rfl) ?_
  refine bindS (vecOf_eq (g := (w.step d tau).mu) fun j => by body []; rfl) ?_
  exact bindS (vecOf_eq (g := (w.step d tau).s) fun j => by body []; rfl) rfl

theorem backtrackV_eq (h : SubSim P' P) {w d w' : Pt n m} {eps norm0 : ℝ} : ∀ (k : ℕ) (tau : ℝ),
    backtrack P w d eps norm0 k tau = some w' →
    backtrackV n m P' (PtV.of w) (PtV.of d) eps norm0 k tau = some (PtV.of w') := by
  intro k
  induction k with
  | zero =>
    intro tau hb
    unfold backtrack at hb
    obtain ⟨v, hv, hb⟩ := Option.bind_eq_some_iff.1 hb
    unfold backtrackV
    refine bindS (stepV_eq w d tau) (bindS (kktNormV_eq h hv) ?_)
    by_cases hc : v < norm0
    · rw [if_pos hc] at hb ⊢; obtain rfl := Option.some.inj hb; rfl
    · rw [if_neg hc] at hb ⊢; obtain rfl := Option.some.inj hb; rfl
  | succ k ih =>
    intro tau hb
    unfold backtrack at hb
    obtain ⟨v, hv, hb⟩ := Option.bind_eq_some_iff.1 hb
    unfold backtrackV
    refine bindS (stepV_eq w d tau) (bindS (kktNormV_eq h hv) ?_)
    by_cases hc : v < norm0
    · rw [if_pos hc] at hb ⊢; obtain rfl := Option.some.inj hb; rfl
    · rw [if_neg hc] at hb ⊢; exact ih _ hb

theorem ipBodyV_eq (h : SubSim P' P) {st st' : Pt n m × ℝ} (hb : ipBody P st = some st') :
    ipBodyV n m P' (PtV.of st.1, st.2) = some (PtV.of st'.1, st'.2) := by
  unfold ipBody at hb
  obtain ⟨d, hd, hb⟩ := Option.bind_eq_some_iff.1 hb
  obtain ⟨tau, ht, hb⟩ := Option.bind_eq_some_iff.1 hb
  obtain ⟨n0, hn, hb⟩ := Option.bind_eq_some_iff.1 hb
  obtain ⟨w, hw, hb⟩ := Option.bind_eq_some_iff.1 hb
  obtain ⟨v, hv, hb⟩ := Option.bind_eq_some_iff.1 hb
  obtain rfl := Option.some.inj hb
  exact bindS (newtonV_eq h hd) (bindS (stepLengthV_eq h ht) (bindS (kktNormV_eq h hn)
    (bindS (backtrackV_eq h _ _ hw) (bindS (kktNormV_eq h hv) rfl))))

/-- A loop that is defined runs in the same way on vectors. -/
theorem ipLoopV_eq (h : SubSim P' P) : ∀ (fuel : ℕ) (st : Pt n m × ℝ), ipLoop P fuel st ≠ .undefined →
    ipLoopV n m P' fuel (PtV.of st.1, st.2) = match ipLoop P fuel st with
      | .undefined => .undefined
      | .running => .running
      | .done r => .done (PtV.of r.1, r.2) := by
  intro fuel
  induction fuel with
  | zero =>
    intro st hu
    unfold ipLoopV ipLoop
    by_cases hc : 1.0e-7 < st.2
    · simp only [hc, if_true]
    · simp only [hc, if_false]
  | succ fuel ih =>
    intro st hu
    unfold ipLoop at hu ⊢
    unfold ipLoopV
    by_cases hc : 1.0e-7 < st.2
    · simp only [hc, if_true] at hu ⊢
      cases hb : ipBody P st with
      | none => rw [hb] at hu; exact absurd rfl hu
      | some st' =>
        rw [hb] at hu
        simp only [ipBodyV_eq h hb]
        exact ih st' hu
    · simp only [hc, if_false]

theorem ipSolveV_eq (h : SubSim P' P) (fuel : ℕ) (hu : ipSolve P fuel ≠ .undefined) :
    ipSolveV n m P' fuel = match ipSolve P fuel with
      | .undefined => .undefined
      | .running => .running
      | .done r => .done (PtV.of r.1, r.2) := by
  unfold ipSolve at hu ⊢
  unfold ipSolveV
  cases hs : ipStart P with
  | none => rw [hs] at hu; exact absurd rfl hu
  | some w =>
    rw [hs] at hu
    rw [ipStartV_eq h hs]
    exact ipLoopV_eq h fuel (w, 1) hu

theorem ent_holds {r k : ℕ} {A : List (List ℝ)} {f : Fin r → Fin k → ℝ} (h : HoldsTab A f) (i : Fin r) (j : Fin k) :
    ent A i j = some (f i j) := by
  obtain ⟨l, hl, hv⟩ := h i
  unfold ent
  rw [hl]
  exact hv j

theorem holds_ofFn {k : ℕ} (f : Fin k → ℝ) : Holds (List.ofFn f) f := ofFn_get f

theorem holds_append {k : ℕ} (f : Fin k → ℝ) (l : List ℝ) : Holds (List.ofFn f ++ l) f := fun i => by
  rw [List.getElem?_append_left (by simp)]
  exact ofFn_get f i

/-! ### MMA -/

section MMA
variable {v : MMAV} {o : MMA n m} {xk' dfdx' g' : List ℝ} {dgdx' : List (List ℝ)} {xk dfdx : Fin n → ℝ} {g : Fin m → ℝ}
  {dgdx : Fin m → Fin n → ℝ}

theorem asymptotesV_eq (h : v.Represents o) (hx : Holds xk' xk) :
    asymptotesV v xk' = some (List.ofFn fun j => (asyL o xk j, asyU o xk j)) := by
  unfold asymptotesV
  rw [h.n]
  refine range_mapM fun j => ?_
  have h1 := h.xmin j
  have h2 := h.xmax j
  have h3 := h.xkm1 j
  have h4 := h.xkm2 j
  have h5 := h.L j
  have h6 := h.U j
  have h7 := hx j
  simp only [h1, h2, h3, h4, h5, h6, h7, h.k, h.asyinit, h.asydecr, h.asyincr, Option.bind_eq_bind, Option.bind_some,
    Option.pure_def, asyL, asyU, asyFactor]
  by_cases hk : o.k < 2
  · simp only [hk, if_true, Option.bind_some]
  · simp only [hk, if_false]
    by_cases t1 : (xk j - o.xkm1 j) * (o.xkm1 j - o.xkm2 j) < 0
    · simp only [t1, if_true, Option.bind_some]
    · simp only [t1, if_false]
      by_cases t2 : 0 < (xk j - o.xkm1 j) * (o.xkm1 j - o.xkm2 j)
      · simp only [t2, if_true, Option.bind_some]
      · simp only [t2, if_false, Option.bind_some, one_mul]

theorem mmaPQ_eq (h : v.Represents o) (hx : Holds xk' xk) {L' U' : List ℝ} (hL : Holds L' (asyL o xk))
    (hU : Holds U' (asyU o xk)) (df : ℝ) (j : Fin n) (hr : o.xmax j - o.xmin j ≠ 0) :
    mmaPQ v xk' L' U' df j = some (mmaP o xk df j, mmaQ o xk df j) := by
  have h1 := h.xmin j
  have h2 := h.xmax j
  have h3 := hL j
  have h4 := hU j
  have h7 := hx j
  unfold mmaPQ
  body [h1, h2, h3, h4, h7, h.raa0, hr, mmaP, mmaQ]

theorem mmaBasisV_sim {L' U' : List ℝ} {L U : Fin n → ℝ} (hL : Holds L' L) (hU : Holds U' U) :
    BasisSim (mmaBasisV L' U') (mmaBasis L U) := by
  refine ⟨fun j p q x ok => ?_, fun j p q x ok => ?_, fun j p q x ok => ?_⟩ <;>
  · have h1 := hL j
    have h2 := hU j
    obtain ⟨o1, o2⟩ := ok
    have o3 := pow_ne_zero 2 o1
    have o4 := pow_ne_zero 2 o2
    have o5 := pow_ne_zero 3 o1
    have o6 := pow_ne_zero 3 o2
    body [mmaBasisV, mmaBasis, h1, h2, o1, o2, o3, o4, o5, o6]

theorem mmaSubV_eq (h : v.Represents o) (hx : Holds xk' xk) (hdf : Holds dfdx' dfdx) (hg : Holds g' g)
    (hdg : HoldsTab dgdx' dgdx) {L' U' : List ℝ} (hL : Holds L' (asyL o xk)) (hU : Holds U' (asyU o xk)) {P : Sub n m}
    (hP : mmaSub o xk dfdx g dgdx = some P) : ∃ P', mmaSubV v xk' L' U' dfdx' g' dgdx' = some P' ∧ SubSim P' P := by
  unfold mmaSub at hP
  split at hP
  swap
  · exact nomatch hP
  rename_i hr
  obtain rfl := Option.some.inj hP
  have x1 := h.xmin
  have x2 := h.xmax
  have x3 := hL
  have x4 := hU
  have x5 := hx
  have x6 := hg
  unfold Holds at x1 x2 x3 x4 x5 x6
  have hpq := fun df j => mmaPQ_eq h hx hL hU df j (hr j).1
  unfold mmaSubV
  rw [h.n, h.m]
  refine ⟨SubV.of (mmaBasisV L' U') v.a0 v.a v.c v.d _, ?_, mmaBasisV_sim hL hU, holds_ofFn _, holds_ofFn _,
    holds_ofFn _, holds_ofFn _, fun i j => ent_ofFn _ i j, fun i j => ent_ofFn _ i j, holds_ofFn _, h.a0, h.a, h.c, h.d⟩
  · refine bindS (vecOf_eq (g := mmaAlpha o xk) fun j => by
      body [x1 j, x2 j, x3 j, x5 j, h.albefa, h.move]; rfl) ?_
    refine bindS (vecOf_eq (g := mmaBeta o xk) fun j => by
      body [x1 j, x2 j, x4 j, x5 j, h.albefa, h.move]; rfl) ?_
    refine bindS (vecOf_eq (g := fun j => mmaP o xk (dfdx j) j) fun j => by
      have := hdf j
      body [this, hpq]) ?_
    refine bindS (vecOf_eq (g := fun j => mmaQ o xk (dfdx j) j) fun j => by
      have := hdf j
      body [this, hpq]) ?_
    refine bindS (tabOf_eq (g := fun i j => mmaP o xk (dgdx i j) j) fun i j => by
      body [ent_holds hdg, hpq]) ?_
    refine bindS (tabOf_eq (g := fun i j => mmaQ o xk (dgdx i j) j) fun i j => by
      body [ent_holds hdg, hpq]) ?_
    refine bindS (vecOf_eq (g := fun i => -g i + ∑ j, (mmaP o xk (dgdx i j) j / (asyU o xk j - xk j) +
        mmaQ o xk (dgdx i j) j / (xk j - asyL o xk j))) fun i => by
      body [x6 i]
      exact sumFrom_eq fun j => by body [x3 j, x4 j, x5 j, (hr j).2.1, (hr j).2.2]) rfl

theorem mmaUpdateV_eq (h : v.Represents o) (hx : Holds xk' xk) (hdf : Holds dfdx' dfdx) (hg : Holds g' g)
    (hdg : HoldsTab dgdx' dgdx) (fuel : ℕ) (f : ℝ) (hu : mmaUpdate o fuel xk f dfdx g dgdx ≠ .undefined) :
    (mmaUpdate o fuel xk f dfdx g dgdx = .running ∧ mmaUpdateV v fuel xk' f dfdx' g' dgdx' = .running) ∨
    ∃ x' o' v', mmaUpdate o fuel xk f dfdx g dgdx = .done (x', o') ∧
      mmaUpdateV v fuel xk' f dfdx' g' dgdx' = .done (List.ofFn x', v') ∧ v'.Represents o' := by
  unfold mmaUpdate at hu ⊢
  cases hP : mmaSub o xk dfdx g dgdx with
  | none => rw [hP] at hu; exact absurd rfl hu
  | some P =>
    rw [hP] at hu
    have hL : Holds ((List.ofFn fun j => (asyL o xk j, asyU o xk j)).map Prod.fst ++ v.L.drop v.n) (asyL o xk) := by
      rw [List.map_ofFn]; exact holds_append (asyL o xk) _
    have hU : Holds ((List.ofFn fun j => (asyL o xk j, asyU o xk j)).map Prod.snd ++ v.U.drop v.n) (asyU o xk) := by
      rw [List.map_ofFn]; exact holds_append (asyU o xk) _
    obtain ⟨P', hP', hsim⟩ := mmaSubV_eq h hx hdf hg hdg hL hU hP
    have e : (do
        let LU ← asymptotesV v xk'
        let L := LU.map Prod.fst ++ v.L.drop v.n
        let U := LU.map Prod.snd ++ v.U.drop v.n
        let P ← mmaSubV v xk' L U dfdx' g' dgdx'
        return (L, U, P)) = some (_, _, P') := bindS (asymptotesV_eq h hx) (bindS hP' rfl)
    unfold mmaUpdateV
    rw [e]
    simp only [] at hu ⊢
    have hs : ipSolve P fuel ≠ .undefined := fun hh => by rw [hh] at hu; exact hu rfl
    have hv := ipSolveV_eq hsim fuel hs
    rw [h.n, h.m, hv]
    cases hr : ipSolve P fuel with
    | undefined => exact absurd hr hs
    | running => exact Or.inl ⟨rfl, rfl⟩
    | done st =>
      refine Or.inr ⟨_, _, _, rfl, rfl, ?_⟩
      exact ⟨by simp only [h.k], rfl, rfl, rfl, h.epsvalue, h.a0, h.raa0, h.albefa, h.move, h.asyinit, h.asydecr,
        h.asyincr, h.xmin, h.xmax, hx, h.xkm1, h.a, h.c, h.d, h.n ▸ hL, h.n ▸ hU⟩

end MMA

/-! ### CONLIN -/

section Conlin
variable {v : CONLINV} {o : CONLIN n m} {xk' dfdx' g' : List ℝ} {dgdx' : List (List ℝ)} {xk dfdx : Fin n → ℝ}
  {g : Fin m → ℝ} {dgdx : Fin m → Fin n → ℝ}

theorem conlinBasisV_sim : BasisSim conlinBasisV (conlinBasis n) := by
  refine ⟨fun j p q x ok => ?_, fun j p q x ok => ?_, fun j p q x ok => ?_⟩ <;>
  · have o1 : x ≠ 0 := ok
    have o3 := pow_ne_zero 2 o1
    have o5 := pow_ne_zero 3 o1
    body [conlinBasisV, conlinBasis, o1, o3, o5]

theorem conlinSubV_eq (h : v.Represents o) (hx : Holds xk' xk) (hdf : Holds dfdx' dfdx) (hg : Holds g' g)
    (hdg : HoldsTab dgdx' dgdx) {P : Sub n m} (hP : conlinSub o xk dfdx g dgdx = some P) :
    ∃ P', conlinSubV v xk' dfdx' g' dgdx' = some P' ∧ SubSim P' P := by
  unfold conlinSub at hP
  split at hP
  swap
  · exact nomatch hP
  rename_i hr
  obtain rfl := Option.some.inj hP
  have x1 := h.xmin
  have x2 := h.xmax
  have x3 := hdf
  have x5 := hx
  have x6 := hg
  unfold Holds at x1 x2 x3 x5 x6
  unfold conlinSubV
  rw [h.n, h.m]
  refine ⟨SubV.of conlinBasisV v.a0 v.a v.c v.d _, ?_, conlinBasisV_sim, holds_ofFn _, holds_ofFn _,
    holds_ofFn _, holds_ofFn _, fun i j => ent_ofFn _ i j, fun i j => ent_ofFn _ i j, holds_ofFn _, h.a0, h.a, h.c, h.d⟩
  refine bindS (vecOf_eq (g := fun j => max (o.xmin j) (xk j - o.move * (o.xmax j - o.xmin j))) fun j => by
    body [x1 j, x2 j, x5 j, h.move]) ?_
  refine bindS (vecOf_eq (g := fun j => min (o.xmax j) (xk j + o.move * (o.xmax j - o.xmin j))) fun j => by
    body [x1 j, x2 j, x5 j, h.move]) ?_
  refine bindS (vecOf_eq (g := fun j => conlinP (dfdx j)) fun j => by body [x3 j]) ?_
  refine bindS (vecOf_eq (g := fun j => conlinQ (dfdx j) (xk j)) fun j => by body [x3 j, x5 j]) ?_
  refine bindS (tabOf_eq (g := fun i j => conlinP (dgdx i j)) fun i j => by body [ent_holds hdg]) ?_
  refine bindS (tabOf_eq (g := fun i j => conlinQ (dgdx i j) (xk j)) fun i j => by body [ent_holds hdg, x5 j]) ?_
  exact bindS (vecOf_eq (g := fun i => -g i + ∑ j, (conlinP (dgdx i j) * xk j + conlinQ (dgdx i j) (xk j) / xk j))
    fun i => by
    body [x6 i]
    exact sumFrom_eq fun j => by body [x5 j, hr i j]) rfl

theorem conlinUpdateV_eq (h : v.Represents o) (hx : Holds xk' xk) (hdf : Holds dfdx' dfdx) (hg : Holds g' g)
    (hdg : HoldsTab dgdx' dgdx) (fuel : ℕ) (f : ℝ) (hu : conlinUpdate o fuel xk f dfdx g dgdx ≠ .undefined) :
    (conlinUpdate o fuel xk f dfdx g dgdx = .running ∧ conlinUpdateV v fuel xk' f dfdx' g' dgdx' = .running) ∨
    ∃ x' o' v', conlinUpdate o fuel xk f dfdx g dgdx = .done (x', o') ∧
      conlinUpdateV v fuel xk' f dfdx' g' dgdx' = .done (List.ofFn x', v') ∧ v'.Represents o' := by
  unfold conlinUpdate at hu ⊢
  cases hP : conlinSub o xk dfdx g dgdx with
  | none => rw [hP] at hu; exact absurd rfl hu
  | some P =>
    rw [hP] at hu
    obtain ⟨P', hP', hsim⟩ := conlinSubV_eq h hx hdf hg hdg hP
    unfold conlinUpdateV
    rw [hP']
    simp only [] at hu ⊢
    have hs : ipSolve P fuel ≠ .undefined := fun hh => by rw [hh] at hu; exact hu rfl
    have hv := ipSolveV_eq hsim fuel hs
    rw [h.n, h.m, hv]
    cases hr : ipSolve P fuel with
    | undefined => exact absurd hr hs
    | running => exact Or.inl ⟨rfl, rfl⟩
    | done st =>
      refine Or.inr ⟨_, _, _, rfl, rfl, ?_⟩
      exact ⟨by simp only [h.k], rfl, rfl, rfl, h.epsvalue, h.a0, h.move, h.xmin, h.xmax, h.a, h.c, h.d⟩

end Conlin

/-! ### Vectors that are too short -/

theorem mapM_eq_none_of_mem {α β : Type} {f : α → Option β} {a : α} (h : f a = none) : ∀ {l : List α}, a ∈ l → l.mapM f = none := by
  intro l
  induction l with
  | nil => intro hm; exact absurd hm (by simp)
  | cons b l ih =>
    intro hm
    rw [List.mapM_cons]
    rcases List.mem_cons.1 hm with rfl | hm
    · rw [h]; rfl
    · rw [ih hm]; cases f b <;> rfl

theorem vecOf_none {k i : ℕ} {f : ℕ → Option ℝ} (hi : i < k) (h : f i = none) : vecOf k f = none :=
  mapM_eq_none_of_mem h (List.mem_range.2 hi)

theorem tabOf_none {r k i j : ℕ} {f : ℕ → ℕ → Option ℝ} (hi : i < r) (hj : j < k) (h : f i j = none) :
    tabOf r k f = none := mapM_eq_none_of_mem (a := i) (vecOf_none hj h) (List.mem_range.2 hi)

theorem bindN {α β : Type} {A : Option α} {F : α → Option β} (h : ∀ a, A = some a → F a = none) : (A >>= F) = none := by
  cases A with
  | none => rfl
  | some a => exact h a rfl

theorem bindNil {α β : Type} {A : Option α} {F : α → Option β} (h : A = none) : (A >>= F) = none := by rw [h]; rfl

theorem past_end {l : List ℝ} {k : ℕ} (h : l.length < k) : l.length < k ∧ l[l.length]? = none :=
  ⟨h, List.getElem?_eq_none le_rfl⟩

theorem holds_getD {l : List ℝ} {k : ℕ} (h : k ≤ l.length) : Holds l fun i : Fin k => l.getD i 0 := fun i => by
  have := lt_of_lt_of_le i.isLt h
  simp [this]

end

end Pansfem
