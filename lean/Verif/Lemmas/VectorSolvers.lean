/-
The vector kernels on vectors of one length are the pointwise expressions.
-/
import Verif.Model.VectorSolvers
import Mathlib.Algebra.BigOperators.Fin
import Mathlib.Data.List.OfFn
import Mathlib.Data.List.FinRange
import Mathlib.Tactic.Ring

namespace Pansfem

variable {K : Type} {n : ℕ}

section Kernels

variable [Add K] [Sub K] [Mul K]

theorem subtractV_ofFn (a b : Fin n → K) :
    subtractV (List.ofFn a) (List.ofFn b) = some (List.ofFn fun i => a i - b i) := by
  induction n with
  | zero => simp [subtractV]
  | succ n ih => simp [List.ofFn_succ, subtractV, ih]

theorem xexpayV_ofFn (x : Fin n → K) (a : K) (y : Fin n → K) :
    xexpayV (List.ofFn x) a (List.ofFn y) = some (List.ofFn fun i => x i + a * y i) := by
  induction n with
  | zero => simp [xexpayV]
  | succ n ih => simp [List.ofFn_succ, xexpayV, ih]

theorem xeaxpyV_ofFn (a : K) (x y : Fin n → K) :
    xeaxpyV a (List.ofFn x) (List.ofFn y) = some (List.ofFn fun i => a * x i + y i) := by
  induction n with
  | zero => simp [xeaxpyV]
  | succ n ih => simp [List.ofFn_succ, xeaxpyV, ih]

theorem zeawpbxmypczV_ofFn (a b c : K) (w x y z : Fin n → K) :
    zeawpbxmypczV a b c (List.ofFn w) (List.ofFn x) (List.ofFn y) (List.ofFn z) =
      some (List.ofFn fun i => a * w i + b * (x i - y i + c * z i)) := by
  induction n with
  | zero => simp [zeawpbxmypczV]
  | succ n ih => simp [List.ofFn_succ, zeawpbxmypczV, ih]

theorem xeaxpbypczV_ofFn (a b c : K) (x y z : Fin n → K) :
    xeaxpbypczV a b c (List.ofFn x) (List.ofFn y) (List.ofFn z) =
      some (List.ofFn fun i => a * x i + b * y i + c * z i) := by
  induction n with
  | zero => simp [xeaxpbypczV]
  | succ n ih => simp [List.ofFn_succ, xeaxpbypczV, ih]

theorem zeaxpbyV_ofFn (a b : K) (x y : Fin n → K) :
    zeaxpbyV a b (List.ofFn x) (List.ofFn y) = some (List.ofFn fun i => a * x i + b * y i) := by
  induction n with
  | zero => simp [zeaxpbyV]
  | succ n ih => simp [List.ofFn_succ, zeaxpbyV, ih]

theorem zeawpbxpcyV_ofFn (a b c : K) (w x y : Fin n → K) :
    zeawpbxpcyV a b c (List.ofFn w) (List.ofFn x) (List.ofFn y) =
      some (List.ofFn fun i => a * w i + b * x i + c * y i) := by
  induction n with
  | zero => simp [zeawpbxpcyV]
  | succ n ih => simp [List.ofFn_succ, zeawpbxpcyV, ih]

theorem zeavpbwpcxpdyV_ofFn (a b c d : K) (v w x y : Fin n → K) :
    zeavpbwpcxpdyV a b c d (List.ofFn v) (List.ofFn w) (List.ofFn x) (List.ofFn y) =
      some (List.ofFn fun i => a * v i + b * w i + c * x i + d * y i) := by
  induction n with
  | zero => simp [zeavpbwpcxpdyV]
  | succ n ih => simp [List.ofFn_succ, zeavpbwpcxpdyV, ih]

end Kernels

theorem innerV_ofFn (acc : ℝ) (a b : Fin n → ℝ) :
    innerV acc (List.ofFn a) (List.ofFn b) = some (acc + a ⬝ᵥ b) := by
  induction n generalizing acc with
  | zero => simp [innerV, dotProduct]
  | succ n ih =>
    simp [List.ofFn_succ, innerV, ih, dotProduct, Fin.sum_univ_succ, add_assoc]

theorem normV_ofFn (v : Fin n → ℝ) : normV (List.ofFn v) = some (vnorm v) := by
  simp [normV, innerV_ofFn, vnorm]

/-! ### The kernels read as many elements as they write -/

theorem subtractV_length [Sub K] (a b : List K) :
    (∀ r, subtractV a b = some r → r.length = b.length) ∧
      (subtractV a b ≠ none ↔ b.length ≤ a.length) := by
  induction b generalizing a with
  | nil => simp [subtractV]
  | cons bi b ih =>
    cases a with
    | nil => simp [subtractV]
    | cons ai a =>
      obtain ⟨h1, h2⟩ := ih a
      cases h : subtractV a b with
      | none => rw [h] at h2; simp at h2; simp [subtractV, h, h2]
      | some r => rw [h] at h2; simp at h2; simp [subtractV, h, h2, h1 r h]

theorem xexpayV_length [Add K] [Mul K] (x : List K) (a : K) (y : List K) :
    (∀ r, xexpayV x a y = some r → r.length = x.length) ∧
      (xexpayV x a y ≠ none ↔ x.length ≤ y.length) := by
  induction x generalizing y with
  | nil => simp [xexpayV]
  | cons xi x ih =>
    cases y with
    | nil => simp [xexpayV]
    | cons yi y =>
      obtain ⟨h1, h2⟩ := ih y
      cases h : xexpayV x a y with
      | none => rw [h] at h2; simp at h2; simp [xexpayV, h, h2]
      | some r => rw [h] at h2; simp at h2; simp [xexpayV, h, h2, h1 r h]

theorem xeaxpyV_length [Add K] [Mul K] (a : K) (x y : List K) :
    (∀ r, xeaxpyV a x y = some r → r.length = x.length) ∧
      (xeaxpyV a x y ≠ none ↔ x.length ≤ y.length) := by
  induction x generalizing y with
  | nil => simp [xeaxpyV]
  | cons xi x ih =>
    cases y with
    | nil => simp [xeaxpyV]
    | cons yi y =>
      obtain ⟨h1, h2⟩ := ih y
      cases h : xeaxpyV a x y with
      | none => rw [h] at h2; simp at h2; simp [xeaxpyV, h, h2]
      | some r => rw [h] at h2; simp at h2; simp [xeaxpyV, h, h2, h1 r h]

theorem zeaxpbyV_length [Add K] [Mul K] (a b : K) (x y : List K) :
    (∀ r, zeaxpbyV a b x y = some r → r.length = x.length) ∧
      (zeaxpbyV a b x y ≠ none ↔ x.length ≤ y.length) := by
  induction x generalizing y with
  | nil => simp [zeaxpbyV]
  | cons xi x ih =>
    cases y with
    | nil => simp [zeaxpbyV]
    | cons yi y =>
      obtain ⟨h1, h2⟩ := ih y
      cases h : zeaxpbyV a b x y with
      | none => rw [h] at h2; simp at h2; simp [zeaxpbyV, h, h2]
      | some r => rw [h] at h2; simp at h2; simp [zeaxpbyV, h, h2, h1 r h]

theorem xeaxpbypczV_length [Add K] [Mul K] (a b c : K) (x y z : List K) :
    (∀ r, xeaxpbypczV a b c x y z = some r → r.length = x.length) ∧
      (xeaxpbypczV a b c x y z ≠ none ↔ x.length ≤ y.length ∧ x.length ≤ z.length) := by
  induction x generalizing y z with
  | nil => simp [xeaxpbypczV]
  | cons xi x ih =>
    cases y with
    | nil => simp [xeaxpbypczV]
    | cons yi y =>
      cases z with
      | nil => simp [xeaxpbypczV]
      | cons zi z =>
        obtain ⟨h1, h2⟩ := ih y z
        cases h : xeaxpbypczV a b c x y z with
        | none => rw [h] at h2; simp at h2; simpa [xeaxpbypczV, h] using h2
        | some r => rw [h] at h2; simp at h2; simp [xeaxpbypczV, h, h2, h1 r h]

theorem zeawpbxpcyV_length [Add K] [Mul K] (a b c : K) (w x y : List K) :
    (∀ r, zeawpbxpcyV a b c w x y = some r → r.length = x.length) ∧
      (zeawpbxpcyV a b c w x y ≠ none ↔ x.length ≤ w.length ∧ x.length ≤ y.length) := by
  induction x generalizing w y with
  | nil => simp [zeawpbxpcyV]
  | cons xi x ih =>
    cases w with
    | nil => simp [zeawpbxpcyV]
    | cons wi w =>
      cases y with
      | nil => simp [zeawpbxpcyV]
      | cons yi y =>
        obtain ⟨h1, h2⟩ := ih w y
        cases h : zeawpbxpcyV a b c w x y with
        | none => rw [h] at h2; simp at h2; simpa [zeawpbxpcyV, h] using h2
        | some r => rw [h] at h2; simp at h2; simp [zeawpbxpcyV, h, h2, h1 r h]

theorem zeawpbxmypczV_length [Add K] [Sub K] [Mul K] (a b c : K) (w x y z : List K) :
    (∀ r, zeawpbxmypczV a b c w x y z = some r → r.length = z.length) ∧
      (zeawpbxmypczV a b c w x y z ≠ none ↔
        z.length ≤ w.length ∧ z.length ≤ x.length ∧ z.length ≤ y.length) := by
  induction z generalizing w x y with
  | nil => simp [zeawpbxmypczV]
  | cons zi z ih =>
    cases w with
    | nil => simp [zeawpbxmypczV]
    | cons wi w =>
      cases x with
      | nil => simp [zeawpbxmypczV]
      | cons xi x =>
        cases y with
        | nil => simp [zeawpbxmypczV]
        | cons yi y =>
          obtain ⟨h1, h2⟩ := ih w x y
          cases h : zeawpbxmypczV a b c w x y z with
          | none => rw [h] at h2; simp at h2; simpa [zeawpbxmypczV, h] using h2
          | some r => rw [h] at h2; simp at h2; simp [zeawpbxmypczV, h, h2, h1 r h]

theorem zeavpbwpcxpdyV_length [Add K] [Mul K] (a b c d : K) (v w x y : List K) :
    (∀ r, zeavpbwpcxpdyV a b c d v w x y = some r → r.length = x.length) ∧
      (zeavpbwpcxpdyV a b c d v w x y ≠ none ↔
        x.length ≤ v.length ∧ x.length ≤ w.length ∧ x.length ≤ y.length) := by
  induction x generalizing v w y with
  | nil => simp [zeavpbwpcxpdyV]
  | cons xi x ih =>
    cases v with
    | nil => simp [zeavpbwpcxpdyV]
    | cons vi v =>
      cases w with
      | nil => simp [zeavpbwpcxpdyV]
      | cons wi w =>
        cases y with
        | nil => simp [zeavpbwpcxpdyV]
        | cons yi y =>
          obtain ⟨h1, h2⟩ := ih v w y
          cases h : zeavpbwpcxpdyV a b c d v w x y with
          | none => rw [h] at h2; simp at h2; simpa [zeavpbwpcxpdyV, h] using h2
          | some r => rw [h] at h2; simp at h2; simp [zeavpbwpcxpdyV, h, h2, h1 r h]

theorem innerV_defined [Add K] [Mul K] (acc : K) (a b : List K) :
    innerV acc a b ≠ none ↔ a.length ≤ b.length := by
  induction a generalizing acc b with
  | nil => simp [innerV]
  | cons ai a ih =>
    cases b with
    | nil => simp [innerV]
    | cons bi b => simpa [innerV] using ih _ b

/-! ### The matrix product and the preconditioners -/

theorem mulVec_length {A : CSR ℝ} {x y : List ℝ} (h : A.mulVec x = some y) :
    y.length = A.rows := by
  have : ∀ (l : List ℕ) (f : ℕ → Option ℝ) (y : List ℝ), l.mapM f = some y → y.length = l.length := by
    intro l f
    induction l with
    | nil => intro y h; simp at h; simp [← h]
    | cons a l ih =>
      intro y h
      simp only [List.mapM_cons, Option.bind_eq_bind, Option.bind_eq_some_iff] at h
      obtain ⟨b, -, c, hc, h⟩ := h
      simp at h
      simp [← h, ih c hc]
  simpa using this _ _ _ h

theorem mulVec_ofFn {A : CSR ℝ} (hA : A.rows = n) (v : Fin n → ℝ) :
    A.mulVec (List.ofFn v) = (csrMul A v).map List.ofFn := by
  unfold csrMul
  cases h : A.mulVec (List.ofFn v) with
  | none => simp
  | some y =>
    have hy : y.length = n := (mulVec_length h).trans hA
    simp only [Option.bind_eq_bind, Option.bind_some, hy, dif_pos]
    subst hy
    simp [List.ofFn_getElem]

theorem set_ofFn (v : Fin n → K) (i : Fin n) (a : K) :
    (List.ofFn v).set i a = List.ofFn (Function.update v i a) := by
  apply List.ext_getElem (by simp)
  intro k h1 h2
  simp only [List.getElem_set, List.getElem_ofFn, Function.update_apply, Fin.ext_iff, eq_comm]

theorem get_ofFn (v : Fin n → K) (i : Fin n) : (List.ofFn v)[(i : ℕ)]? = some (v i) := by
  simp

theorem get_ofFn_none (v : Fin n → K) {j : ℕ} (h : ¬ j < n) : (List.ofFn v)[j]? = none := by
  simp; omega

theorem foldlM_fins {S T : Type} (e : S → T) (f : T → ℕ → Option T) (g : S → Fin n → Option S)
    (h : ∀ (v : S) (i : Fin n), f (e v) i = (g v i).map e) (l : List (Fin n)) (v : S) :
    (l.map Fin.val).foldlM f (e v) = (l.foldlM g v).map e := by
  induction l generalizing v with
  | nil => simp
  | cons i l ih =>
    simp only [List.map_cons, List.foldlM_cons, h]
    cases hg : g v i with
    | none => simp
    | some w => simpa using ih w

theorem ilFwdV_ofFn (i : Fin n) (l : List (ℕ × ℝ)) (v : Fin n → ℝ) :
    ilFwdV i l (List.ofFn v) = (ilFwd i l v).map List.ofFn := by
  induction l generalizing v with
  | nil => simp [ilFwdV, ilFwd]
  | cons p l ih =>
    obtain ⟨j, a⟩ := p
    by_cases h : j < (i : ℕ)
    · have hj : j < n := h.trans i.2
      have e := get_ofFn v ⟨j, hj⟩
      simp only [ilFwdV, ilFwd, h, if_true, dif_pos, get_ofFn]
      simp only at e
      rw [e]
      simp only [Option.bind_eq_bind, Option.bind_some, set_ofFn]
      exact ih _
    · simp [ilFwdV, ilFwd, h]

theorem ilBwdV_ofFn (i : Fin n) (l : List (ℕ × ℝ)) (v : Fin n → ℝ) :
    ilBwdV i l (List.ofFn v) = (ilBwd i l v).map List.ofFn := by
  induction l generalizing v with
  | nil => simp [ilBwdV, ilBwd]
  | cons p l ih =>
    obtain ⟨j, a⟩ := p
    by_cases h : (i : ℕ) < j
    · by_cases hj : j < n
      · have e := get_ofFn v ⟨j, hj⟩
        simp only [ilBwdV, ilBwd, h, if_true, dif_pos hj, get_ofFn]
        simp only at e
        rw [e]
        simp only [Option.bind_eq_bind, Option.bind_some, set_ofFn]
        exact ih _
      · simp [ilBwdV, ilBwd, h, hj]
    · simp [ilBwdV, ilBwd, h]

theorem preILU0V_ofFn (M : CSR ℝ) (b : Fin n → ℝ) :
    preILU0V M (List.ofFn b) = (preILU0 M b).map List.ofFn := by
  unfold preILU0V preILU0
  have hr : List.range n = (List.finRange n).map Fin.val := (List.map_coe_finRange_eq_range).symm
  rw [List.length_ofFn, hr, ← List.map_reverse]
  rw [foldlM_fins List.ofFn _ (fun (v : Fin n → ℝ) (i : Fin n) => do ilFwd i (← M.rowEntries i) v) (by
    intro v i
    cases M.rowEntries i with
    | none => simp
    | some l => simpa using ilFwdV_ofFn i l v)]
  cases (List.finRange n).foldlM (fun (v : Fin n → ℝ) (i : Fin n) => do ilFwd i (← M.rowEntries i) v) b with
  | none => simp
  | some v =>
    simp only [Option.map_some, Option.bind_eq_bind, Option.bind_some]
    exact foldlM_fins List.ofFn _ (fun (v : Fin n → ℝ) (i : Fin n) => do
      let v ← ilBwd i (← M.rowEntries i).reverse v
      let d ← sdivide (v i) (← M.get i i)
      return Function.update v i d) (by
      intro v i
      cases M.rowEntries i with
      | none => simp
      | some l =>
        simp only [Option.bind_eq_bind, Option.bind_some, ilBwdV_ofFn]
        cases ilBwd i l.reverse v with
        | none => simp
        | some v =>
          simp only [Option.map_some, Option.bind_some, get_ofFn]
          cases M.get i i with
          | none => simp
          | some d =>
            simp only [Option.bind_some]
            cases sdivide (v i) d with
            | none => simp
            | some q => simp [set_ofFn]) _ _

theorem sorRowV_ofFn (i : Fin n) (l : List (ℕ × ℝ)) (x : Fin n → ℝ) (d : ℝ) :
    sorRowV i l (List.ofFn x, d) = (sorRow i l (x, d)).map fun s => (List.ofFn s.1, s.2) := by
  induction l generalizing x d with
  | nil => simp [sorRowV, sorRow]
  | cons p l ih =>
    obtain ⟨j, a⟩ := p
    by_cases h : (i : ℕ) ≠ j
    · by_cases hj : j < n
      · have e := get_ofFn x ⟨j, hj⟩
        simp only [sorRowV, sorRow, h, if_true, dif_pos hj, get_ofFn, ne_eq, not_false_iff]
        simp only at e
        rw [e]
        simp only [Option.bind_eq_bind, Option.bind_some, set_ofFn]
        exact ih _ _
      · simp only [sorRowV, sorRow, h, if_true, dif_neg hj, get_ofFn, ne_eq, not_false_iff,
          get_ofFn_none x hj]
        simp
    · simp only [sorRowV, sorRow, h, if_false]
      exact ih _ _

theorem sorCompV_ofFn (A : CSR ℝ) (b : Fin n → ℝ) (w : ℝ) (s : (Fin n → ℝ) × Option ℝ) (i : Fin n) :
    sorCompV A (List.ofFn b) w (List.ofFn s.1, s.2) i =
      (sorComp A b w s i).map fun s => (List.ofFn s.1, s.2) := by
  unfold sorCompV sorComp
  simp only [get_ofFn, Option.bind_eq_bind, Option.bind_some, set_ofFn]
  cases A.rowEntries i with
  | none => simp
  | some l =>
    simp only [Option.bind_some, sorRowV_ofFn]
    cases sorRow i l (Function.update s.1 i (b i), 0) with
    | none => simp
    | some t =>
      obtain ⟨x, d⟩ := t
      simp only [Option.map_some, Option.bind_some, get_ofFn]
      cases sdivide (x i) d with
      | none => simp
      | some q => simp [set_ofFn]

theorem sorLoopV_ofFn {A : CSR ℝ} (hA : A.rows = n) (b : Fin n → ℝ) (w eps : ℝ) (m : ℕ)
    (x : Fin n → ℝ) : sorLoopV A (List.ofFn b) w eps m (List.ofFn x) =
      (sorLoop A b w eps m x).map fun p => List.ofFn p.1 := by
  induction m generalizing x with
  | zero => simp [sorLoopV, sorLoop]
  | succ m ih =>
    have hr : List.range n = (List.finRange n).map Fin.val := (List.map_coe_finRange_eq_range).symm
    have h := foldlM_fins (fun s : (Fin n → ℝ) × Option ℝ => (List.ofFn s.1, s.2))
      (sorCompV A (List.ofFn b) w) (sorComp A b w) (sorCompV_ofFn A b w) (List.finRange n)
      (x, some 0)
    unfold sorLoopV sorLoop sorSweep
    rw [hA, hr]
    simp only at h
    rw [h]
    cases (List.finRange n).foldlM (sorComp A b w) (x, some 0) with
    | none => simp
    | some t =>
      obtain ⟨x', e⟩ := t
      simp only [Option.map_some, Option.bind_eq_bind, Option.bind_some]
      split
      · simp
      · exact ih _

theorem zeros_ofFn (n : ℕ) : List.replicate n (0 : ℝ) = List.ofFn (0 : Fin n → ℝ) := by
  apply List.ext_getElem (by simp)
  intro k h1 h2
  simp

theorem sorV_ofFn {A : CSR ℝ} (hA : A.rows = n) (b : Fin n → ℝ) (w : ℝ) (itrmax : ℕ) (eps : ℝ) :
    sorV A (List.ofFn b) w itrmax eps = ((sor A b w itrmax eps).map Prod.fst).map List.ofFn := by
  unfold sorV sor
  rw [if_pos hA, hA, zeros_ofFn, sorLoopV_ofFn hA, Option.map_map]
  rfl

theorem mapM_range_ofFn (f : ℕ → Option K) (n : ℕ) (g : Fin n → K) (h : ∀ i : Fin n, f i = some (g i)) :
    (List.range n).mapM f = some (List.ofFn g) := by
  have hr : List.range n = (List.finRange n).map Fin.val := (List.map_coe_finRange_eq_range).symm
  have : ∀ l : List (Fin n), (l.map Fin.val).mapM f = some (l.map g) := by
    intro l
    induction l with
    | nil => simp
    | cons i l ih =>
      rw [List.map_cons, List.mapM_cons, h, ih]
      rfl
  rw [hr, this, List.ofFn_eq_map]

theorem scalingV_ofFn (D b : Fin n → ℝ) :
    scalingV (List.ofFn D) (List.ofFn b) = (scaling D b).map List.ofFn := by
  unfold scalingV scaling
  rw [List.length_ofFn]
  split
  · rename_i h
    obtain ⟨i, hi⟩ := h
    rw [Option.map_none]
    by_contra hne
    obtain ⟨l, hl⟩ := Option.ne_none_iff_exists'.1 hne
    have : ∀ (l : List ℕ) (f : ℕ → Option ℝ) (y : List ℝ), l.mapM f = some y →
        ∀ k ∈ l, f k ≠ none := by
      intro l f
      induction l with
      | nil => simp
      | cons a l ih =>
        intro y h
        simp only [List.mapM_cons, Option.bind_eq_bind, Option.bind_eq_some_iff] at h
        obtain ⟨b, hb, c, hc, h⟩ := h
        intro k hk
        rcases List.mem_cons.1 hk with rfl | hk
        · simp [hb]
        · exact ih c hc k hk
    refine this _ _ _ hl i (List.mem_range.2 i.2) ?_
    simp only [get_ofFn, Option.bind_eq_bind, Option.bind_some]
    simp [sdivide, hi]
  · rename_i h
    push Not at h
    exact mapM_range_ofFn _ n _ fun i => by
      simp only [get_ofFn, Option.bind_eq_bind, Option.bind_some]
      simp [sdivide, h i]

theorem getDiagonalV_ofFn {A : CSR ℝ} (hA : A.rows = n) :
    getDiagonalV A = (getDiagonal n A).map List.ofFn := by
  unfold getDiagonalV getDiagonal
  rw [if_pos hA, hA]
  cases h : (List.range n).mapM fun i => A.get i i with
  | none => simp
  | some y =>
    have hy : y.length = n := by
      have : ∀ (l : List ℕ) (f : ℕ → Option ℝ) (y : List ℝ), l.mapM f = some y →
          y.length = l.length := by
        intro l f
        induction l with
        | nil => intro y h; simp at h; simp [← h]
        | cons a l ih =>
          intro y h
          simp only [List.mapM_cons, Option.bind_eq_bind, Option.bind_eq_some_iff] at h
          obtain ⟨b, -, c, hc, h⟩ := h
          simp at h
          simp [← h, ih c hc]
      simpa using this _ _ _ h
    simp only [Option.bind_eq_bind, Option.bind_some, hy, dif_pos]
    subst hy
    simp [List.ofFn_getElem]

end Pansfem
