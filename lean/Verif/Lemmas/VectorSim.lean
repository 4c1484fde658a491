/-
The solvers on vectors of the length of the matrix are those on `Fin n → ℝ`.
-/
import Verif.Lemmas.VectorSolvers

namespace Pansfem

/-! ### One length -/

variable {n : ℕ}

/-- The variables of `CG` as vectors. -/
def CGState.toVars (s : CGState n) : CGVars := ⟨List.ofFn s.x, List.ofFn s.r, List.ofFn s.p, s.rr⟩

/-- The variables of `BiCGSTAB` as vectors. -/
def BiState.toVars (s : BiState n) : BiVars :=
  ⟨List.ofFn s.x, List.ofFn s.r, List.ofFn s.rdash, List.ofFn s.p, s.rdr⟩

/-- The variables of `BiCGSTAB2` as vectors. -/
def Bi2State.toVars (s : Bi2State n) : Bi2Vars :=
  ⟨List.ofFn s.x, List.ofFn s.r, List.ofFn s.rdash, List.ofFn s.p, List.ofFn s.u, List.ofFn s.tm,
    List.ofFn s.w, List.ofFn s.z, s.beta, s.rdr⟩

/-- The result of a solver as a vector. -/
def asVector (p : (Fin n → ℝ) × Bool) : List ℝ × Bool := (List.ofFn p.1, p.2)

theorem inner0 (u v : Fin n → ℝ) : innerV 0 (List.ofFn u) (List.ofFn v) = some (u ⬝ᵥ v) := by
  rw [innerV_ofFn, zero_add]

theorem xexpay_eq (x : Fin n → ℝ) (a : ℝ) (y : Fin n → ℝ) :
    xexpayV (List.ofFn x) a (List.ofFn y) = some (List.ofFn (x + a • y)) := xexpayV_ofFn x a y

theorem xeaxpy_eq (a : ℝ) (x y : Fin n → ℝ) :
    xeaxpyV a (List.ofFn x) (List.ofFn y) = some (List.ofFn (a • x + y)) := xeaxpyV_ofFn a x y

theorem zeaxpby_eq (a b : ℝ) (x y : Fin n → ℝ) :
    zeaxpbyV a b (List.ofFn x) (List.ofFn y) = some (List.ofFn (a • x + b • y)) :=
  zeaxpbyV_ofFn a b x y

theorem xeaxpbypcz_eq (a b c : ℝ) (x y z : Fin n → ℝ) :
    xeaxpbypczV a b c (List.ofFn x) (List.ofFn y) (List.ofFn z) =
      some (List.ofFn (a • x + b • y + c • z)) := xeaxpbypczV_ofFn a b c x y z

theorem zeawpbxpcy_eq (a b c : ℝ) (x y z : Fin n → ℝ) :
    zeawpbxpcyV a b c (List.ofFn x) (List.ofFn y) (List.ofFn z) =
      some (List.ofFn (a • x + b • y + c • z)) := zeawpbxpcyV_ofFn a b c x y z

theorem zeawpbxmypcz_eq (a b c : ℝ) (w x y z : Fin n → ℝ) :
    zeawpbxmypczV a b c (List.ofFn w) (List.ofFn x) (List.ofFn y) (List.ofFn z) =
      some (List.ofFn (a • w + b • (x - y + c • z))) := zeawpbxmypczV_ofFn a b c w x y z

theorem zeavpbwpcxpdy_eq (a b c d : ℝ) (v w x y : Fin n → ℝ) :
    zeavpbwpcxpdyV a b c d (List.ofFn v) (List.ofFn w) (List.ofFn x) (List.ofFn y) =
      some (List.ofFn (a • v + b • w + c • x + d • y)) := zeavpbwpcxpdyV_ofFn a b c d v w x y

theorem subtract_eq (a b : Fin n → ℝ) :
    subtractV (List.ofFn a) (List.ofFn b) = some (List.ofFn (a - b)) := subtractV_ofFn a b

theorem subtract_get (b : List ℝ) (y : Fin b.length → ℝ) :
    subtractV b (List.ofFn y) = some (List.ofFn (b.get - y)) := by
  have := subtract_eq b.get y
  rwa [List.ofFn_get] at this

theorem normV_get (b : List ℝ) : normV b = some (vnorm b.get) := by
  have := normV_ofFn b.get
  rwa [List.ofFn_get] at this

/-- A bind on either side. -/
theorem bind_sim {S T U V : Type} {e : S → T} {g : U → V} {f : Option S} {f' : Option T}
    {k : S → Option U} {k' : T → Option V} (h : f' = f.map e) (hk : ∀ s, k' (e s) = (k s).map g) :
    (f' >>= k') = (f >>= k).map g := by
  subst h
  cases f with
  | none => rfl
  | some s => exact hk s

/-- A bind on either side with the same value. -/
theorem bind_same {S U V : Type} {g : U → V} {f : Option S}
    {k : S → Option U} {k' : S → Option V} (hk : ∀ s, k' s = (k s).map g) :
    (f >>= k') = (f >>= k).map g := by
  cases f with
  | none => rfl
  | some s => exact hk s

/-- A value on one side. -/
theorem bind_value {T V : Type} {f : Option T} {t : T} {k : T → Option V} {r : Option V}
    (h : f = some t) (hk : k t = r) : (f >>= k) = r := by
  subst h
  exact hk

theorem cgStepV_eq {A : CSR ℝ} (hA : A.rows = n) (s : CGState n) :
    cgStepV A s.toVars = (cgStep A s).map CGState.toVars := by
  unfold cgStepV cgStep CGState.toVars
  simp only [mulVec_ofFn hA]
  cases csrMul A s.p with
  | none => simp
  | some Ap =>
    simp only [Option.map_some, Option.bind_eq_bind, Option.bind_some, inner0]
    cases sdivide s.rr (s.p ⬝ᵥ Ap) with
    | none => simp
    | some alpha =>
      simp only [Option.bind_some, xexpay_eq, inner0]
      cases sdivide _ s.rr with
      | none => simp
      | some beta => simp only [Option.bind_some, xeaxpy_eq]; rfl

theorem cgLoopV_eq {A : CSR ℝ} (hA : A.rows = n) (eps bn : ℝ) (m : ℕ) (s : CGState n) :
    cgLoopV A eps bn m s.toVars = (cgLoop A eps bn m s).map asVector := by
  induction m generalizing s with
  | zero => rfl
  | succ m ih =>
    unfold cgLoopV cgLoop
    rw [cgStepV_eq hA]
    cases cgStep A s with
    | none => simp
    | some s' =>
      simp only [Option.map_some, Option.bind_eq_bind, Option.bind_some]
      rw [show s'.toVars.rr = s'.rr from rfl]
      split
      · rfl
      · exact ih s'

theorem pcgStepV_eq {A : CSR ℝ} (hA : A.rows = n) {N : List ℝ → Option (List ℝ)}
    {M : (Fin n → ℝ) → Option (Fin n → ℝ)} (hM : ∀ v, N (List.ofFn v) = (M v).map List.ofFn)
    (s : CGState n) : pcgStepV A N s.toVars = (pcgStep A M s).map CGState.toVars := by
  unfold pcgStepV pcgStep CGState.toVars
  simp only [mulVec_ofFn hA]
  cases csrMul A s.p with
  | none => simp
  | some Ap =>
    simp only [Option.map_some, Option.bind_eq_bind, Option.bind_some, inner0]
    cases sdivide s.rr (s.p ⬝ᵥ Ap) with
    | none => simp
    | some alpha =>
      simp only [Option.bind_some, xexpay_eq, hM]
      cases M _ with
      | none => simp
      | some Mr =>
        simp only [Option.map_some, Option.bind_some, inner0]
        cases sdivide _ s.rr with
        | none => simp
        | some beta => simp only [Option.bind_some, xeaxpy_eq]; rfl

theorem pcgLoopV_eq {A : CSR ℝ} (hA : A.rows = n) {N : List ℝ → Option (List ℝ)}
    {M : (Fin n → ℝ) → Option (Fin n → ℝ)} (hM : ∀ v, N (List.ofFn v) = (M v).map List.ofFn)
    (eps bn : ℝ) (m : ℕ) (s : CGState n) :
    pcgLoopV A N eps bn m s.toVars = (pcgLoop A M eps bn m s).map asVector := by
  induction m generalizing s with
  | zero => rfl
  | succ m ih =>
    unfold pcgLoopV pcgLoop
    rw [pcgStepV_eq hA hM]
    cases pcgStep A M s with
    | none => simp
    | some s' =>
      simp only [Option.map_some, Option.bind_eq_bind, Option.bind_some]
      rw [show s'.toVars.r = List.ofFn s'.r from rfl, normV_ofFn]
      simp only [Option.bind_some]
      split
      · rfl
      · exact ih s'

theorem biStepV_eq {A : CSR ℝ} (hA : A.rows = n) (s : BiState n) :
    biStepV A s.toVars = (biStep A s).map BiState.toVars := by
  unfold biStepV biStep
  refine bind_sim (mulVec_ofFn hA _) fun Ap => ?_
  refine bind_value (inner0 _ _) ?_
  refine bind_same fun alpha => ?_
  refine bind_value (zeaxpby_eq _ _ _ _) ?_
  refine bind_sim (mulVec_ofFn hA _) fun As => ?_
  refine bind_value (inner0 _ _) ?_
  refine bind_value (inner0 _ _) ?_
  refine bind_same fun omega => ?_
  refine bind_value (xeaxpbypcz_eq _ _ _ _ _ _) ?_
  refine bind_value (zeaxpby_eq _ _ _ _) ?_
  refine bind_value (inner0 _ _) ?_
  refine bind_same fun ao => ?_
  refine bind_same fun beta => ?_
  exact bind_value (xeaxpbypcz_eq _ _ _ _ _ _) rfl

theorem biLoopV_eq {A : CSR ℝ} (hA : A.rows = n) (eps bn : ℝ) (m : ℕ) (s : BiState n) :
    biLoopV A eps bn m s.toVars = (biLoop A eps bn m s).map asVector := by
  induction m generalizing s with
  | zero => rfl
  | succ m ih =>
    unfold biLoopV biLoop
    rw [biStepV_eq hA]
    cases biStep A s with
    | none => simp
    | some s' =>
      simp only [Option.map_some, Option.bind_eq_bind, Option.bind_some]
      rw [show s'.toVars.r = List.ofFn s'.r from rfl, normV_ofFn]
      simp only [Option.bind_some]
      split
      · rfl
      · exact ih s'

theorem pbiStepV_eq {A : CSR ℝ} (hA : A.rows = n) {N : List ℝ → Option (List ℝ)}
    {M : (Fin n → ℝ) → Option (Fin n → ℝ)} (hM : ∀ v, N (List.ofFn v) = (M v).map List.ofFn)
    (s : BiState n) : pbiStepV A N s.toVars = (pbiStep A M s).map BiState.toVars := by
  unfold pbiStepV pbiStep
  refine bind_sim (hM _) fun Mp => ?_
  refine bind_sim (mulVec_ofFn hA _) fun Ap => ?_
  refine bind_value (inner0 _ _) ?_
  refine bind_same fun alpha => ?_
  refine bind_value (zeaxpby_eq _ _ _ _) ?_
  refine bind_sim (hM _) fun Ms => ?_
  refine bind_sim (mulVec_ofFn hA _) fun As => ?_
  refine bind_value (inner0 _ _) ?_
  refine bind_value (inner0 _ _) ?_
  refine bind_same fun omega => ?_
  refine bind_value (xeaxpbypcz_eq _ _ _ _ _ _) ?_
  refine bind_value (zeaxpby_eq _ _ _ _) ?_
  refine bind_value (inner0 _ _) ?_
  refine bind_same fun ao => ?_
  refine bind_same fun beta => ?_
  exact bind_value (xeaxpbypcz_eq _ _ _ _ _ _) rfl

theorem pbiLoopV_eq {A : CSR ℝ} (hA : A.rows = n) {N : List ℝ → Option (List ℝ)}
    {M : (Fin n → ℝ) → Option (Fin n → ℝ)} (hM : ∀ v, N (List.ofFn v) = (M v).map List.ofFn)
    (eps bn : ℝ) (m : ℕ) (s : BiState n) :
    pbiLoopV A N eps bn m s.toVars = (pbiLoop A M eps bn m s).map asVector := by
  induction m generalizing s with
  | zero => rfl
  | succ m ih =>
    unfold pbiLoopV pbiLoop
    rw [pbiStepV_eq hA hM]
    cases pbiStep A M s with
    | none => simp
    | some s' =>
      simp only [Option.map_some, Option.bind_eq_bind, Option.bind_some]
      rw [show s'.toVars.r = List.ofFn s'.r from rfl, normV_ofFn]
      simp only [Option.bind_some]
      split
      · rfl
      · exact ih s'

theorem bi2CoefV_eq (k : ℕ) (y t At : Fin n → ℝ) :
    bi2CoefV k (List.ofFn y) (List.ofFn t) (List.ofFn At) = bi2Coef k y t At := by
  unfold bi2CoefV bi2Coef
  simp only [inner0, Option.bind_eq_bind, Option.bind_some]

theorem bi2StepV_eq {A : CSR ℝ} (hA : A.rows = n) (k : ℕ) (s : Bi2State n) :
    bi2StepV A k s.toVars = (bi2Step A k s).map Bi2State.toVars := by
  unfold bi2StepV bi2Step
  refine bind_value (xeaxpbypcz_eq _ _ _ _ _ _) ?_
  refine bind_sim (mulVec_ofFn hA _) fun Ap => ?_
  refine bind_value (inner0 _ _) ?_
  refine bind_same fun alpha => ?_
  refine bind_value (zeavpbwpcxpdy_eq _ _ _ _ _ _ _ _) ?_
  refine bind_value (zeaxpby_eq _ _ _ _) ?_
  refine bind_sim (mulVec_ofFn hA _) fun At => ?_
  rw [bi2CoefV_eq]
  refine bind_same fun c => ?_
  obtain ⟨zeta, ita⟩ := c
  refine bind_value (zeawpbxmypcz_eq _ _ _ _ _ _ _) ?_
  refine bind_value (xeaxpbypcz_eq _ _ _ _ _ _) ?_
  refine bind_value (xeaxpbypcz_eq _ _ _ _ _ _) ?_
  refine bind_value (zeawpbxpcy_eq _ _ _ _ _ _) ?_
  refine bind_value (inner0 _ _) ?_
  refine bind_same fun beta => ?_
  exact bind_value (zeaxpby_eq _ _ _ _) rfl

theorem bi2LoopV_eq {A : CSR ℝ} (hA : A.rows = n) (eps bn : ℝ) (m k : ℕ) (s : Bi2State n) :
    bi2LoopV A eps bn m k s.toVars = (bi2Loop A eps bn m k s).map asVector := by
  induction m generalizing s k with
  | zero => rfl
  | succ m ih =>
    unfold bi2LoopV bi2Loop
    rw [bi2StepV_eq hA]
    cases bi2Step A k s with
    | none => simp
    | some s' =>
      simp only [Option.map_some, Option.bind_eq_bind, Option.bind_some]
      rw [show s'.toVars.r = List.ofFn s'.r from rfl, normV_ofFn]
      simp only [Option.bind_some]
      split
      · rfl
      · exact ih _ s'

/-! ### Other lengths -/

theorem mapM_len {S T : Type} (l : List S) (f : S → Option T) {y : List T}
    (h : l.mapM f = some y) : y.length = l.length := by
  induction l generalizing y with
  | nil => simp at h; simp [← h]
  | cons a l ih =>
    simp only [List.mapM_cons, Option.bind_eq_bind, Option.bind_eq_some_iff] at h
    obtain ⟨b, -, c, hc, h⟩ := h
    simp at h
    simp [← h, ih hc]

theorem foldlM_len {S T : Type} (l : List S) (f : T → S → Option T) (len : T → ℕ)
    (hf : ∀ v i w, f v i = some w → len w = len v) {v w : T} (h : l.foldlM f v = some w) :
    len w = len v := by
  induction l generalizing v with
  | nil => simp at h; rw [h]
  | cons a l ih =>
    simp only [List.foldlM_cons, Option.bind_eq_bind, Option.bind_eq_some_iff] at h
    obtain ⟨u, hu, h⟩ := h
    rw [ih h, hf _ _ _ hu]

theorem scalingV_len {D b y : List ℝ} (h : scalingV D b = some y) : y.length = D.length := by
  simpa using mapM_len _ _ h

theorem getDiagonalV_len {A : CSR ℝ} {D : List ℝ} (h : getDiagonalV A = some D) :
    D.length = A.rows := by
  simpa using mapM_len _ _ h

theorem ilFwdV_len {i : ℕ} {l : List (ℕ × ℝ)} {v w : List ℝ} (h : ilFwdV i l v = some w) :
    w.length = v.length := by
  induction l generalizing v with
  | nil => simp [ilFwdV] at h; rw [h]
  | cons p l ih =>
    obtain ⟨j, a⟩ := p
    unfold ilFwdV at h
    split at h
    · simp only [Option.bind_eq_bind, Option.bind_eq_some_iff] at h
      obtain ⟨x, -, y, -, h⟩ := h
      simpa using ih h
    · simp at h; rw [h]

theorem ilBwdV_len {i : ℕ} {l : List (ℕ × ℝ)} {v w : List ℝ} (h : ilBwdV i l v = some w) :
    w.length = v.length := by
  induction l generalizing v with
  | nil => simp [ilBwdV] at h; rw [h]
  | cons p l ih =>
    obtain ⟨j, a⟩ := p
    unfold ilBwdV at h
    split at h
    · simp only [Option.bind_eq_bind, Option.bind_eq_some_iff] at h
      obtain ⟨x, -, y, -, h⟩ := h
      simpa using ih h
    · simp at h; rw [h]

theorem preILU0V_len {M : CSR ℝ} {b w : List ℝ} (h : preILU0V M b = some w) :
    w.length = b.length := by
  unfold preILU0V at h
  simp only [Option.bind_eq_bind, Option.bind_eq_some_iff] at h
  obtain ⟨v, hv, h⟩ := h
  have h1 := foldlM_len _ _ List.length (by
    intro v i w h
    simp only [Option.bind_eq_some_iff] at h
    obtain ⟨l, -, h⟩ := h
    exact ilFwdV_len h) hv
  have h2 := foldlM_len _ _ List.length (by
    intro v i w h
    simp only [Option.bind_eq_some_iff] at h
    obtain ⟨l, -, u, hu, x, -, d, -, q, -, h⟩ := h
    simp at h
    rw [← h, List.length_set, ilBwdV_len hu]) h
  rw [h2, h1]

theorem sorRowV_len {i : ℕ} {l : List (ℕ × ℝ)} {s t : List ℝ × ℝ} (h : sorRowV i l s = some t) :
    t.1.length = s.1.length := by
  induction l generalizing s with
  | nil => simp [sorRowV] at h; rw [h]
  | cons p l ih =>
    obtain ⟨j, a⟩ := p
    obtain ⟨x, d⟩ := s
    unfold sorRowV at h
    split at h
    · simp only [Option.bind_eq_bind, Option.bind_eq_some_iff] at h
      obtain ⟨u, -, y, -, h⟩ := h
      simpa using ih h
    · exact ih (s := (x, a)) h

theorem sorLoopV_len {A : CSR ℝ} {b : List ℝ} {w eps : ℝ} {m : ℕ} {x y : List ℝ}
    (h : sorLoopV A b w eps m x = some y) : y.length = x.length := by
  induction m generalizing x with
  | zero => simp [sorLoopV] at h; rw [h]
  | succ m ih =>
    unfold sorLoopV at h
    simp only [Option.bind_eq_bind, Option.bind_eq_some_iff] at h
    obtain ⟨⟨x', e⟩, hx, h⟩ := h
    have h1 := foldlM_len _ _ (fun s : List ℝ × Option ℝ => s.1.length) (by
      intro s i t h
      unfold sorCompV at h
      simp only [Option.bind_eq_bind, Option.bind_eq_some_iff] at h
      obtain ⟨u, -, v, -, l, -, ⟨x, d⟩, hx, y, -, q, -, h⟩ := h
      have := sorRowV_len hx
      simp only [Option.pure_def, Option.some.injEq] at h
      rw [← h]
      simpa using this) hx
    simp only at h1 h
    split at h
    · simp at h; rw [← h, h1]
    · rw [ih h, h1]

theorem sorV_len {A : CSR ℝ} {b : List ℝ} {w eps : ℝ} {m : ℕ} {y : List ℝ}
    (h : sorV A b w m eps = some y) : y.length = A.rows := by
  rw [sorLoopV_len h, List.length_replicate]

theorem csrMul_none {A : CSR ℝ} (hA : A.rows ≠ n) (v : Fin n → ℝ) : csrMul A v = none := by
  unfold csrMul
  cases h : A.mulVec (List.ofFn v) with
  | none => rfl
  | some y =>
    have := mulVec_length h
    simp only [Option.bind_eq_bind, Option.bind_some]
    rw [dif_neg (by omega)]

/-- The first residual: defined only when the matrix has no more rows than `b`, with one entry per
row. -/
theorem residual_len {A : CSR ℝ} {b x r : List ℝ}
    (h : (do subtractV b (← A.mulVec x)) = some r) :
    r.length = A.rows ∧ A.rows ≤ b.length := by
  simp only [Option.bind_eq_bind, Option.bind_eq_some_iff] at h
  obtain ⟨y, hy, h⟩ := h
  have h1 := mulVec_length hy
  have h2 := subtractV_length b y
  refine ⟨(h2.1 r h).trans h1, ?_⟩
  have := h2.2.1 (by simp [h])
  omega

theorem xexpayV_short {x y : List ℝ} {a : ℝ} (h : y.length < x.length) : xexpayV x a y = none := by
  by_contra hne
  have := (xexpayV_length x a y).2.1 hne
  omega

theorem xeaxpbypczV_short {x y z : List ℝ} {a b c : ℝ} (h : y.length < x.length) :
    xeaxpbypczV a b c x y z = none := by
  by_contra hne
  have := (xeaxpbypczV_length a b c x y z).2.1 hne
  omega

theorem bind_none' {S T : Type} {f : Option S} {k : S → Option T} (h : ∀ s, f = some s → k s = none) :
    (f >>= k) = none := by
  cases f with
  | none => rfl
  | some s => exact h s rfl

theorem cgStepV_none {A : CSR ℝ} {s : CGVars} (h : s.p.length < s.x.length) :
    cgStepV A s = none := by
  unfold cgStepV
  refine bind_none' fun Ap _ => bind_none' fun d _ => bind_none' fun alpha _ => ?_
  rw [xexpayV_short h]
  rfl

theorem pcgStepV_none {A : CSR ℝ} {M : List ℝ → Option (List ℝ)} {s : CGVars}
    (h : s.p.length < s.x.length) : pcgStepV A M s = none := by
  unfold pcgStepV
  refine bind_none' fun Ap _ => bind_none' fun d _ => bind_none' fun alpha _ => ?_
  rw [xexpayV_short h]
  rfl

theorem biStepV_none {A : CSR ℝ} {s : BiVars} (h : s.p.length < s.x.length) :
    biStepV A s = none := by
  unfold biStepV
  refine bind_none' fun Ap _ => bind_none' fun d _ => bind_none' fun alpha _ =>
    bind_none' fun sk _ => bind_none' fun As _ => bind_none' fun q _ => bind_none' fun q' _ =>
    bind_none' fun omega _ => ?_
  rw [xeaxpbypczV_short h]
  rfl

theorem pbiStepV_none {A : CSR ℝ} {M : List ℝ → Option (List ℝ)} {s : BiVars}
    (h : ∀ y, M s.p = some y → y.length < s.x.length) :
    pbiStepV A M s = none := by
  unfold pbiStepV
  refine bind_none' fun Mp hMp => bind_none' fun Ap _ => bind_none' fun d _ =>
    bind_none' fun alpha _ => bind_none' fun sk _ => bind_none' fun Ms _ => bind_none' fun As _ =>
    bind_none' fun q _ => bind_none' fun q' _ => bind_none' fun omega _ => ?_
  rw [xeaxpbypczV_short (h _ hMp)]
  rfl

theorem bi2StepV_none {A : CSR ℝ} {k : ℕ} {s : Bi2Vars} (h : s.r.length < s.p.length) :
    bi2StepV A k s = none := by
  unfold bi2StepV
  rw [xeaxpbypczV_short h]
  rfl

end Pansfem
