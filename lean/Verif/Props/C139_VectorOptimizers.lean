/-
C139: MMA and CONLIN on vectors of any length.
-/
import Verif.Lemmas.VectorOptimizers
import Verif.Props.C83_InnerLoop

namespace Pansfem

noncomputable section

variable {n m : ℕ}

/-- **C139 (MMA)**: on vectors that hold the data, `MMA::UpdateVariables` does what it does with `n` variables and `m`
constraints, whenever that is defined: it runs on, or it ends with the same design, in a vector of length `n`, and an
object with the same data. -/
theorem C139_mma {v : MMAV} {o : MMA n m} {x' dfdx' g' : List ℝ} {dgdx' : List (List ℝ)} {x dfdx : Fin n → ℝ} {g : Fin m → ℝ}
    {dgdx : Fin m → Fin n → ℝ} (h : v.Represents o) (hx : Holds x' x) (hdf : Holds dfdx' dfdx) (hg : Holds g' g)
    (hdg : HoldsTab dgdx' dgdx) (fuel : ℕ) (f : ℝ) (hu : mmaUpdate o fuel x f dfdx g dgdx ≠ .undefined) :
    (mmaUpdate o fuel x f dfdx g dgdx = .running ∧ mmaUpdateV v fuel x' f dfdx' g' dgdx' = .running) ∨
    ∃ y o1 v1, mmaUpdate o fuel x f dfdx g dgdx = .done (y, o1) ∧
      mmaUpdateV v fuel x' f dfdx' g' dgdx' = .done (List.ofFn y, v1) ∧ v1.Represents o1 :=
  mmaUpdateV_eq h hx hdf hg hdg fuel f hu

/-- **C139 (CONLIN)**: the same for `CONLIN::UpdateVariables`. -/
theorem C139_conlin {v : CONLINV} {o : CONLIN n m} {x' dfdx' g' : List ℝ} {dgdx' : List (List ℝ)} {x dfdx : Fin n → ℝ}
    {g : Fin m → ℝ} {dgdx : Fin m → Fin n → ℝ} (h : v.Represents o) (hx : Holds x' x) (hdf : Holds dfdx' dfdx)
    (hg : Holds g' g) (hdg : HoldsTab dgdx' dgdx) (fuel : ℕ) (f : ℝ)
    (hu : conlinUpdate o fuel x f dfdx g dgdx ≠ .undefined) :
    (conlinUpdate o fuel x f dfdx g dgdx = .running ∧ conlinUpdateV v fuel x' f dfdx' g' dgdx' = .running) ∨
    ∃ y o1 v1, conlinUpdate o fuel x f dfdx g dgdx = .done (y, o1) ∧
      conlinUpdateV v fuel x' f dfdx' g' dgdx' = .done (List.ofFn y, v1) ∧ v1.Represents o1 :=
  conlinUpdateV_eq h hx hdf hg hdg fuel f hu

theorem holds_replicate (k : ℕ) (a : ℝ) : Holds (List.replicate k a) fun _ : Fin k => a := by
  rw [ofFn_const]; exact holds_ofFn _

/-- **C139 (constructors)**: objects made from vectors that are long enough have the data of the objects made from their
first entries, also after `SetParameters`. -/
theorem C139_made {a0 : ℝ} {a' c' d' xmin' xmax' : List ℝ} {a c d : Fin m → ℝ} {xmin xmax : Fin n → ℝ}
    (ha : Holds a' a) (hc : Holds c' c) (hd : Holds d' d) (hmin : Holds xmin' xmin) (hmax : Holds xmax' xmax) :
    (MMAV.mk' n m a0 a' c' d' xmin' xmax').Represents (MMA.mk' a0 a c d xmin xmax) ∧
    (∀ r b s i j k e, ((MMAV.mk' n m a0 a' c' d' xmin' xmax').setParameters r b s i j k e).Represents
      ((MMA.mk' a0 a c d xmin xmax).setParameters r b s i j k e)) ∧
    (CONLINV.mk' n m a0 a' c' d' xmin' xmax').Represents (CONLIN.mk' a0 a c d xmin xmax) ∧
    (∀ s e, ((CONLINV.mk' n m a0 a' c' d' xmin' xmax').setParameters s e).Represents
      ((CONLIN.mk' a0 a c d xmin xmax).setParameters s e)) :=
  ⟨⟨rfl, rfl, rfl, rfl, rfl, rfl, rfl, rfl, rfl, rfl, rfl, rfl, hmin, hmax, holds_replicate _ _, holds_replicate _ _, ha,
      hc, hd, holds_replicate _ _, holds_replicate _ _⟩,
    fun _ _ _ _ _ _ _ => ⟨rfl, rfl, rfl, rfl, rfl, rfl, rfl, rfl, rfl, rfl, rfl, rfl, hmin, hmax, holds_replicate _ _,
      holds_replicate _ _, ha, hc, hd, holds_replicate _ _, holds_replicate _ _⟩,
    ⟨rfl, rfl, rfl, rfl, rfl, rfl, rfl, hmin, hmax, ha, hc, hd⟩,
    fun _ _ => ⟨rfl, rfl, rfl, rfl, rfl, rfl, rfl, hmin, hmax, ha, hc, hd⟩⟩

/-- **C139 (too short)**: if the design, a bound, a derivative, a constraint value or `c` has too few entries,
`MMA::UpdateVariables` is undefined. -/
theorem C139_short {v : MMAV} {x dfdx g : List ℝ} {dgdx : List (List ℝ)} (fuel : ℕ) (f : ℝ)
    (h : x.length < v.n ∨ v.xmin.length < v.n ∨ v.xmax.length < v.n ∨ dfdx.length < v.n ∨ g.length < v.m ∨
      v.c.length < v.m ∨ ∃ i < v.m, ∃ j < v.n, ∀ r, dgdx[i]? = some r → r.length ≤ j) :
    mmaUpdateV v fuel x f dfdx g dgdx = .undefined := by
  unfold mmaUpdateV
  by_cases hc : v.c.length < v.m
  · cases e : (do
        let LU ← asymptotesV v x
        let L := LU.map Prod.fst ++ v.L.drop v.n
        let U := LU.map Prod.snd ++ v.U.drop v.n
        let P ← mmaSubV v x L U dfdx g dgdx
        return (L, U, P)) with
    | none => rfl
    | some r =>
      obtain ⟨L, U, P⟩ := r
      obtain ⟨LU, hLU, e⟩ := Option.bind_eq_some_iff.1 e
      obtain ⟨P', hP, e⟩ := Option.bind_eq_some_iff.1 e
      obtain ⟨rfl, rfl, rfl⟩ := by simpa using e
      have hPc : P'.c = v.c := by
        unfold mmaSubV at hP
        obtain ⟨_, _, hP⟩ := Option.bind_eq_some_iff.1 hP
        obtain ⟨_, _, hP⟩ := Option.bind_eq_some_iff.1 hP
        obtain ⟨_, _, hP⟩ := Option.bind_eq_some_iff.1 hP
        obtain ⟨_, _, hP⟩ := Option.bind_eq_some_iff.1 hP
        obtain ⟨_, _, hP⟩ := Option.bind_eq_some_iff.1 hP
        obtain ⟨_, _, hP⟩ := Option.bind_eq_some_iff.1 hP
        obtain ⟨_, _, hP⟩ := Option.bind_eq_some_iff.1 hP
        rw [← Option.some.inj hP]
      have : ipStartV v.n v.m P' = none := by
        unfold ipStartV
        exact bindNil (vecOf_none (past_end (hPc ▸ hc)).1 (by rw [(past_end (hPc ▸ hc)).2]; rfl))
      simp only [ipSolveV, this]
  have e : (do
        let LU ← asymptotesV v x
        let L := LU.map Prod.fst ++ v.L.drop v.n
        let U := LU.map Prod.snd ++ v.U.drop v.n
        let P ← mmaSubV v x L U dfdx g dgdx
        return (L, U, P)) = none := by
    have lift : (∀ L U, mmaSubV v x L U dfdx g dgdx = none) → (do
        let LU ← asymptotesV v x
        let L := LU.map Prod.fst ++ v.L.drop v.n
        let U := LU.map Prod.snd ++ v.U.drop v.n
        let P ← mmaSubV v x L U dfdx g dgdx
        return (L, U, P)) = none := fun hh => bindN fun LU _ => bindNil (hh _ _)
    rcases h with h | h | h | h | h | h | h
    · refine bindNil (mapM_eq_none_of_mem (a := x.length) ?_ (List.mem_range.2 h))
      rw [(past_end h).2]
      cases v.xmax[x.length]? <;> [rfl; (cases v.xmin[x.length]? <;> rfl)]
    · refine bindNil (mapM_eq_none_of_mem (a := v.xmin.length) ?_ (List.mem_range.2 h))
      rw [(past_end h).2]
      cases v.xmax[v.xmin.length]? <;> rfl
    · refine bindNil (mapM_eq_none_of_mem (a := v.xmax.length) ?_ (List.mem_range.2 h))
      rw [(past_end h).2]
      rfl
    · refine lift fun L U => bindN fun _ _ => bindN fun _ _ => bindNil (vecOf_none h ?_)
      rw [(past_end h).2]; rfl
    · refine lift fun L U => bindN fun _ _ => bindN fun _ _ => bindN fun _ _ => bindN fun _ _ => bindN fun _ _ =>
        bindN fun _ _ => bindNil (vecOf_none h ?_)
      rw [(past_end h).2]; rfl
    · exact absurd h hc
    · obtain ⟨i, hi, j, hj, hr⟩ := h
      have he : ent dgdx i j = none := by
        unfold ent
        cases hr' : dgdx[i]? with
        | none => rfl
        | some r => exact List.getElem?_eq_none (hr r hr')
      refine lift fun L U => bindN fun _ _ => bindN fun _ _ => bindN fun _ _ => bindN fun _ _ =>
        bindNil (tabOf_none hi hj ?_)
      rw [he]; rfl
  rw [e]

/-- **C139 (too short, inner loop)**: if `a` or `d` has fewer than `m` entries, the first pass of the inner loop is
undefined. -/
theorem C139_short_weights {v : MMAV} {x dfdx g : List ℝ} {dgdx : List (List ℝ)} (fuel : ℕ) (f : ℝ)
    (h : v.a.length < v.m ∨ v.d.length < v.m) : mmaUpdateV v (fuel + 1) x f dfdx g dgdx = .undefined := by
  unfold mmaUpdateV
  cases e : (do
        let LU ← asymptotesV v x
        let L := LU.map Prod.fst ++ v.L.drop v.n
        let U := LU.map Prod.snd ++ v.U.drop v.n
        let P ← mmaSubV v x L U dfdx g dgdx
        return (L, U, P)) with
  | none => rfl
  | some r =>
    obtain ⟨L, U, P⟩ := r
    obtain ⟨LU, hLU, e⟩ := Option.bind_eq_some_iff.1 e
    obtain ⟨P', hP, e⟩ := Option.bind_eq_some_iff.1 e
    obtain ⟨rfl, rfl, rfl⟩ := by simpa using e
    have hPa : P'.a = v.a ∧ P'.d = v.d := by
      unfold mmaSubV at hP
      obtain ⟨_, _, hP⟩ := Option.bind_eq_some_iff.1 hP
      obtain ⟨_, _, hP⟩ := Option.bind_eq_some_iff.1 hP
      obtain ⟨_, _, hP⟩ := Option.bind_eq_some_iff.1 hP
      obtain ⟨_, _, hP⟩ := Option.bind_eq_some_iff.1 hP
      obtain ⟨_, _, hP⟩ := Option.bind_eq_some_iff.1 hP
      obtain ⟨_, _, hP⟩ := Option.bind_eq_some_iff.1 hP
      obtain ⟨_, _, hP⟩ := Option.bind_eq_some_iff.1 hP
      rw [← Option.some.inj hP]
      exact ⟨rfl, rfl⟩
    have hcoef : ∀ w, coefV v.n v.m P' w 1 = none := by
      intro w
      refine bindN fun _ _ => bindN fun _ _ => bindN fun _ _ => bindN fun _ _ => bindN fun _ _ => ?_
      rcases h with h | h
      · refine bindN fun _ _ => bindN fun _ _ => bindN fun _ _ => bindN fun _ _ => bindN fun _ _ =>
          bindNil (vecOf_none (past_end (hPa.1 ▸ h)).1 ?_)
        rw [(past_end (hPa.1 ▸ h)).2]; rfl
      · refine bindNil (vecOf_none (past_end (hPa.2 ▸ h)).1 ?_)
        rw [(past_end (hPa.2 ▸ h)).2]; rfl
    simp only []
    have hs : ipSolveV v.n v.m P' (fuel + 1) = .undefined := by
      unfold ipSolveV
      cases ipStartV v.n v.m P' with
      | none => rfl
      | some w =>
        simp only []
        unfold ipLoopV
        rw [if_pos (by norm_num)]
        have : ipBodyV v.n v.m P' (w, 1) = none := bindNil (bindNil (hcoef w))
        simp only [this]
    rw [hs]

/-- **C139 (too short, CONLIN)**: if a vector has too few entries, `CONLIN::UpdateVariables` is undefined; `a` and `d` are
first read in the inner loop. -/
theorem C139_conlin_short {v : CONLINV} {x dfdx g : List ℝ} {dgdx : List (List ℝ)} (fuel : ℕ) (f : ℝ)
    (h : x.length < v.n ∨ v.xmin.length < v.n ∨ v.xmax.length < v.n ∨ dfdx.length < v.n ∨ g.length < v.m ∨
      v.a.length < v.m ∨ v.c.length < v.m ∨ v.d.length < v.m ∨
      ∃ i < v.m, ∃ j < v.n, ∀ r, dgdx[i]? = some r → r.length ≤ j) :
    conlinUpdateV v (fuel + 1) x f dfdx g dgdx = .undefined := by
  unfold conlinUpdateV
  cases hP : conlinSubV v x dfdx g dgdx with
  | none => rfl
  | some P =>
    simp only []
    have hn : ∀ {α : Type} {A : Option α}, A = none → ∀ a, A ≠ some a := fun h a ha => by rw [h] at ha; exact nomatch ha
    have hP0 := hP
    unfold conlinSubV at hP
    obtain ⟨_, e1, hP⟩ := Option.bind_eq_some_iff.1 hP
    obtain ⟨_, e2, hP⟩ := Option.bind_eq_some_iff.1 hP
    obtain ⟨_, e3, hP⟩ := Option.bind_eq_some_iff.1 hP
    obtain ⟨_, e4, hP⟩ := Option.bind_eq_some_iff.1 hP
    obtain ⟨_, e5, hP⟩ := Option.bind_eq_some_iff.1 hP
    obtain ⟨_, e6, hP⟩ := Option.bind_eq_some_iff.1 hP
    obtain ⟨_, e7, hP⟩ := Option.bind_eq_some_iff.1 hP
    have hPa : P.a = v.a ∧ P.c = v.c ∧ P.d = v.d := by
      rw [← Option.some.inj hP]; exact ⟨rfl, rfl, rfl⟩
    have hbody : (∀ w, coefV v.n v.m P w 1 = none) → ipSolveV v.n v.m P (fuel + 1) = .undefined := by
      intro hcoef
      unfold ipSolveV
      cases ipStartV v.n v.m P with
      | none => rfl
      | some w =>
        simp only []
        unfold ipLoopV
        rw [if_pos (by norm_num)]
        have : ipBodyV v.n v.m P (w, 1) = none := bindNil (bindNil (hcoef w))
        simp only [this]
    rcases h with h | h | h | h | h | h | h | h | h
    · refine absurd e1 (hn (vecOf_none h ?_) _)
      rw [(past_end h).2]
      cases v.xmin[x.length]? <;> rfl
    · refine absurd e1 (hn (vecOf_none h ?_) _)
      rw [(past_end h).2]; rfl
    · refine absurd e2 (hn (vecOf_none h ?_) _)
      rw [(past_end h).2]; rfl
    · refine absurd e3 (hn (vecOf_none h ?_) _)
      rw [(past_end h).2]; rfl
    · refine absurd e7 (hn (vecOf_none h ?_) _)
      rw [(past_end h).2]; rfl
    · rw [hbody fun w => by
        refine bindN fun _ _ => bindN fun _ _ => bindN fun _ _ => bindN fun _ _ => bindN fun _ _ => ?_
        refine bindN fun _ _ => bindN fun _ _ => bindN fun _ _ => bindN fun _ _ => bindN fun _ _ =>
          bindNil (vecOf_none (past_end (hPa.1 ▸ h)).1 ?_)
        rw [(past_end (hPa.1 ▸ h)).2]; rfl]
    · have : ipStartV v.n v.m P = none := by
        unfold ipStartV
        exact bindNil (vecOf_none (past_end (hPa.2.1 ▸ h)).1 (by rw [(past_end (hPa.2.1 ▸ h)).2]; rfl))
      simp only [ipSolveV, this]
    · rw [hbody fun w => by
        refine bindN fun _ _ => bindN fun _ _ => bindN fun _ _ => bindN fun _ _ => bindN fun _ _ => ?_
        refine bindNil (vecOf_none (past_end (hPa.2.2 ▸ h)).1 ?_)
        rw [(past_end (hPa.2.2 ▸ h)).2]; rfl]
    · obtain ⟨i, hi, j, hj, hr⟩ := h
      have he : ent dgdx i j = none := by
        unfold ent
        cases hr' : dgdx[i]? with
        | none => rfl
        | some r => exact List.getElem?_eq_none (hr r hr')
      refine absurd e5 (hn (tabOf_none hi hj ?_) _)
      rw [he]; rfl

/-- The object of fixed size with the data of an object with vectors. -/
def MMAV.fixed (v : MMAV) : MMA v.n v.m where
  k := v.k
  previousvalue := v.previousvalue
  epsvalue := v.epsvalue
  xmin j := v.xmin.getD j 0
  xmax j := v.xmax.getD j 0
  xkm1 j := v.xkm1.getD j 0
  xkm2 j := v.xkm2.getD j 0
  a0 := v.a0
  a i := v.a.getD i 0
  c i := v.c.getD i 0
  d i := v.d.getD i 0
  raa0 := v.raa0
  albefa := v.albefa
  move := v.move
  asyinit := v.asyinit
  asydecr := v.asydecr
  asyincr := v.asyincr
  L j := v.L.getD j 0
  U j := v.U.getD j 0

/-- The object of fixed size with the data of an object with vectors. -/
def CONLINV.fixed (v : CONLINV) : CONLIN v.n v.m where
  k := v.k
  previousvalue := v.previousvalue
  epsvalue := v.epsvalue
  xmin j := v.xmin.getD j 0
  xmax j := v.xmax.getD j 0
  a0 := v.a0
  a i := v.a.getD i 0
  c i := v.c.getD i 0
  d i := v.d.getD i 0
  move := v.move

theorem length_of_entries {l : List ℝ} {k : ℕ} (h : ∀ j < k, ∃ t, l[j]? = some t) : k ≤ l.length := by
  by_contra hlt
  obtain ⟨t, ht⟩ := h l.length (by omega)
  simp at ht

theorem getD_of_get {l : List ℝ} {j : ℕ} {t : ℝ} (h : l[j]? = some t) : l.getD j 0 = t := by
  rw [List.getD_eq_getElem?_getD, h]; rfl

theorem holdsTab_getD {A : List (List ℝ)} {r k : ℕ} (h : ∀ i < r, ∃ l, A[i]? = some l ∧ k ≤ l.length) :
    HoldsTab A fun (i : Fin r) (j : Fin k) => (A.getD i []).getD j 0 := fun i => by
  obtain ⟨l, hl, hk⟩ := h i i.isLt
  refine ⟨l, hl, ?_⟩
  have : A.getD i [] = l := by rw [List.getD_eq_getElem?_getD, hl]; rfl
  simp only [this]
  exact holds_getD hk

theorem ready_represents {v : MMAV} {x : List ℝ} (h : v.Ready x) :
    v.Represents v.fixed ∧ v.n ≤ x.length ∧ MMAOk v.fixed (fun j => x.getD j 0) ∧ ∀ i, 0 ≤ v.fixed.d i := by
  have l1 : v.n ≤ v.xmin.length := length_of_entries fun j hj => by
    obtain ⟨l, u, t, h1, h2, h3, _⟩ := h.box j hj; exact ⟨_, h1⟩
  have l2 : v.n ≤ v.xmax.length := length_of_entries fun j hj => by
    obtain ⟨l, u, t, h1, h2, h3, _⟩ := h.box j hj; exact ⟨_, h2⟩
  have l3 : v.n ≤ x.length := length_of_entries fun j hj => by
    obtain ⟨l, u, t, h1, h2, h3, _⟩ := h.box j hj; exact ⟨_, h3⟩
  have l4 : v.m ≤ v.d.length := length_of_entries fun j hj => by
    obtain ⟨d, h1, _⟩ := h.weights.2.2 j hj; exact ⟨_, h1⟩
  refine ⟨⟨rfl, rfl, rfl, rfl, rfl, rfl, rfl, rfl, rfl, rfl, rfl, rfl, holds_getD l1, holds_getD l2, holds_getD h.past.1,
    holds_getD h.past.2, holds_getD h.weights.1, holds_getD h.weights.2.1, holds_getD l4, holds_getD h.asymptotes.1,
    holds_getD h.asymptotes.2⟩, l3, ⟨fun j => ?_, fun j => ?_, fun j => ?_, h.albefa.1.le, h.albefa.2, h.move⟩, fun i => ?_⟩
  · obtain ⟨l, u, t, h1, h2, h3, h4, h5, h6⟩ := h.box j j.isLt
    simp only [MMAV.fixed, getD_of_get h1, getD_of_get h2, h4]
  · obtain ⟨l, u, t, h1, h2, h3, h4, h5, h6⟩ := h.box j j.isLt
    simp only [MMAV.fixed, getD_of_get h1, getD_of_get h3, h5]
  · obtain ⟨l, u, t, h1, h2, h3, h4, h5, h6⟩ := h.box j j.isLt
    simp only [MMAV.fixed, getD_of_get h2, getD_of_get h3, h6]
  · obtain ⟨d, h1, h2⟩ := h.weights.2.2 i i.isLt
    simp only [MMAV.fixed, getD_of_get h1, h2]

/-- What the object looks like after a call. -/
theorem mmaUpdateV_done {v v1 : MMAV} {x dfdx g y : List ℝ} {dgdx : List (List ℝ)} {fuel : ℕ} {f : ℝ}
    (h : mmaUpdateV v fuel x f dfdx g dgdx = .done (y, v1)) : ∃ L U, v1 = { v with
      L := L, U := U, previousvalue := f, k := v.k + 1, xkm2 := v.xkm1, xkm1 := x } := by
  unfold mmaUpdateV at h
  split at h
  · exact nomatch h
  · rename_i L U P _
    cases hs : ipSolveV v.n v.m P fuel with
    | undefined => rw [hs] at h; exact nomatch h
    | running => rw [hs] at h; exact nomatch h
    | done st =>
      rw [hs] at h
      simp only [Run.done.injEq, Prod.mk.injEq] at h
      exact ⟨L, U, h.2.symm⟩

/-- **C139 (safe)**: with vectors that are long enough, a design in a box with an interior and sensible parameters,
`MMA::UpdateVariables` reads nothing outside its vectors and divides by nothing that is zero.  When it ends, the new
design has `n` entries, each strictly inside the box and inside the move limit, the old design and the one before are
remembered, and everything is ready for the next call. -/
theorem C139_safe {v : MMAV} {x dfdx g : List ℝ} {dgdx : List (List ℝ)} (h : v.Ready x)
    (hl : LongEnough v.n v.m dfdx g dgdx) (fuel : ℕ) (f : ℝ) :
    mmaUpdateV v fuel x f dfdx g dgdx = .running ∨
    ∃ y v1, mmaUpdateV v fuel x f dfdx g dgdx = .done (y, v1) ∧ y.length = v.n ∧
      (∀ j < v.n, ∃ l u s t, v.xmin[j]? = some l ∧ v.xmax[j]? = some u ∧ x[j]? = some s ∧ y[j]? = some t ∧ l < t ∧ t < u ∧
        |t - s| < v.move * (u - l)) ∧
      v1.Ready y ∧ v1.n = v.n ∧ v1.m = v.m ∧ v1.xmin = v.xmin ∧ v1.xmax = v.xmax ∧ v1.k = v.k + 1 ∧
      v1.previousvalue = f ∧ v1.xkm1 = x ∧ v1.xkm2 = v.xkm1 := by
  obtain ⟨hr, hx, ho, hd⟩ := ready_represents h
  have hu := C83_mma ho h.albefa.1 h.raa0 hd fuel f (fun j => dfdx.getD j 0) (fun i => g.getD i 0)
    fun i j => (dgdx.getD i []).getD j 0
  rcases C139_mma hr (holds_getD hx) (holds_getD hl.dfdx) (holds_getD hl.g) (holdsTab_getD hl.dgdx) fuel f hu with
    ⟨_, h1⟩ | ⟨y, o1, v1, h1, h2, h3⟩
  · exact Or.inl h1
  refine Or.inr ⟨_, v1, h2, List.length_ofFn, ?_, ?_⟩
  · intro j hj
    obtain ⟨l, u, t, b1, b2, b3, b4, b5, b6⟩ := h.box j hj
    obtain ⟨⟨c1, c2⟩, c3, _⟩ := C48_mma ho h1 ⟨j, hj⟩
    simp only [MMAV.fixed, getD_of_get b1, getD_of_get b2, getD_of_get b3] at c1 c2 c3
    exact ⟨l, u, t, y ⟨j, hj⟩, b1, b2, b3, ofFn_get y ⟨j, hj⟩, c1, c2, c3⟩
  · obtain ⟨L, U, hv⟩ := mmaUpdateV_done h2
    have hin := C48_mma ho h1
    have eL := h3.L
    have eU := h3.U
    have lL : v.n ≤ v1.L.length := length_of_entries fun j hj => ⟨_, eL ⟨j, hj⟩⟩
    have lU : v.n ≤ v1.U.length := length_of_entries fun j hj => ⟨_, eU ⟨j, hj⟩⟩
    subst hv
    refine ⟨⟨?_, ⟨hx, h.past.1⟩, ⟨lL, lU⟩, h.weights, h.albefa, h.move, h.raa0⟩, rfl, rfl, rfl, rfl, rfl, rfl, rfl, rfl⟩
    intro j hj
    obtain ⟨l, u, t, b1, b2, b3, b4, b5, b6⟩ := h.box j hj
    obtain ⟨⟨c1, c2⟩, _⟩ := hin ⟨j, hj⟩
    simp only [MMAV.fixed, getD_of_get b1, getD_of_get b2] at c1 c2
    exact ⟨l, u, y ⟨j, hj⟩, b1, b2, ofFn_get y ⟨j, hj⟩, b4, c1.le, c2.le⟩

/-- **C139 (all calls)**: after any sequence of calls the object is ready for the next, and the design has stayed in the
box. -/
theorem C139_calls {v v1 : MMAV} {x y : List ℝ} (h : v.Ready x) (hc : MMAVCalls v x v1 y) :
    v1.Ready y ∧ v1.n = v.n ∧ v1.m = v.m ∧ v1.xmin = v.xmin ∧ v1.xmax = v.xmax := by
  induction hc with
  | nil v x => exact ⟨h, rfl, rfl, rfl, rfl⟩
  | cons fuel f dfdx g dgdx long call rest ih =>
    rcases C139_safe h long fuel f with hr | ⟨y, v1, h1, _, _, h2, h3, h4, h5, h6, _⟩
    · rw [call] at hr; exact nomatch hr
    · rw [call] at h1
      simp only [Run.done.injEq, Prod.mk.injEq] at h1
      obtain ⟨rfl, rfl⟩ := h1
      obtain ⟨i1, i2, i3, i4, i5⟩ := ih h2
      exact ⟨i1, i2.trans h3, i3.trans h4, i4.trans h5, i5.trans h6⟩

theorem conlin_ready_represents {v : CONLINV} {x : List ℝ} (h : v.Ready x) :
    v.Represents v.fixed ∧ v.n ≤ x.length ∧ CONLINOk v.fixed (fun j => x.getD j 0) ∧ (∀ j, 0 < v.fixed.xmin j) ∧
      ∀ i, 0 ≤ v.fixed.d i := by
  have l1 : v.n ≤ v.xmin.length := length_of_entries fun j hj => by
    obtain ⟨l, u, t, h1, h2, h3, _⟩ := h.box j hj; exact ⟨_, h1⟩
  have l2 : v.n ≤ v.xmax.length := length_of_entries fun j hj => by
    obtain ⟨l, u, t, h1, h2, h3, _⟩ := h.box j hj; exact ⟨_, h2⟩
  have l3 : v.n ≤ x.length := length_of_entries fun j hj => by
    obtain ⟨l, u, t, h1, h2, h3, _⟩ := h.box j hj; exact ⟨_, h3⟩
  have l4 : v.m ≤ v.d.length := length_of_entries fun j hj => by
    obtain ⟨d, h1, _⟩ := h.weights.2.2 j hj; exact ⟨_, h1⟩
  refine ⟨⟨rfl, rfl, rfl, rfl, rfl, rfl, rfl, holds_getD l1, holds_getD l2, holds_getD h.weights.1,
    holds_getD h.weights.2.1, holds_getD l4⟩, l3, ⟨fun j => ?_, fun j => ?_, fun j => ?_, h.move⟩, fun j => ?_, fun i => ?_⟩
  · obtain ⟨l, u, t, h1, h2, h3, h0, h4, h5, h6⟩ := h.box j j.isLt
    simp only [CONLINV.fixed, getD_of_get h1, getD_of_get h2, h4]
  · obtain ⟨l, u, t, h1, h2, h3, h0, h4, h5, h6⟩ := h.box j j.isLt
    simp only [CONLINV.fixed, getD_of_get h1, getD_of_get h3, h5]
  · obtain ⟨l, u, t, h1, h2, h3, h0, h4, h5, h6⟩ := h.box j j.isLt
    simp only [CONLINV.fixed, getD_of_get h2, getD_of_get h3, h6]
  · obtain ⟨l, u, t, h1, h2, h3, h0, h4, h5, h6⟩ := h.box j j.isLt
    simp only [CONLINV.fixed, getD_of_get h1, h0]
  · obtain ⟨d, h1, h2⟩ := h.weights.2.2 i i.isLt
    simp only [CONLINV.fixed, getD_of_get h1, h2]

theorem conlinUpdateV_done {v v1 : CONLINV} {x dfdx g y : List ℝ} {dgdx : List (List ℝ)} {fuel : ℕ} {f : ℝ}
    (h : conlinUpdateV v fuel x f dfdx g dgdx = .done (y, v1)) : v1 = { v with previousvalue := f, k := v.k + 1 } := by
  unfold conlinUpdateV at h
  split at h
  · exact nomatch h
  · rename_i P _
    cases hs : ipSolveV v.n v.m P fuel with
    | undefined => rw [hs] at h; exact nomatch h
    | running => rw [hs] at h; exact nomatch h
    | done st =>
      rw [hs] at h
      simp only [Run.done.injEq, Prod.mk.injEq] at h
      exact h.2.symm

/-- **C139 (safe, CONLIN)**: the same for `CONLIN::UpdateVariables` with positive lower bounds. -/
theorem C139_conlin_safe {v : CONLINV} {x dfdx g : List ℝ} {dgdx : List (List ℝ)} (h : v.Ready x)
    (hl : LongEnough v.n v.m dfdx g dgdx) (fuel : ℕ) (f : ℝ) :
    conlinUpdateV v fuel x f dfdx g dgdx = .running ∨
    ∃ y v1, conlinUpdateV v fuel x f dfdx g dgdx = .done (y, v1) ∧ y.length = v.n ∧
      (∀ j < v.n, ∃ l u s t, v.xmin[j]? = some l ∧ v.xmax[j]? = some u ∧ x[j]? = some s ∧ y[j]? = some t ∧ l < t ∧ t < u ∧
        |t - s| < v.move * (u - l)) ∧
      v1.Ready y ∧ v1 = { v with previousvalue := f, k := v.k + 1 } := by
  obtain ⟨hr, hx, ho, h0, hd⟩ := conlin_ready_represents h
  have hu := C83_conlin ho h0 hd fuel f (fun j => dfdx.getD j 0) (fun i => g.getD i 0)
    fun i j => (dgdx.getD i []).getD j 0
  rcases C139_conlin hr (holds_getD hx) (holds_getD hl.dfdx) (holds_getD hl.g) (holdsTab_getD hl.dgdx) fuel f hu with
    ⟨_, h1⟩ | ⟨y, o1, v1, h1, h2, h3⟩
  · exact Or.inl h1
  have hin := C51_conlin ho h1
  have hv := conlinUpdateV_done h2
  refine Or.inr ⟨_, v1, h2, List.length_ofFn, ?_, ?_, hv⟩
  · intro j hj
    obtain ⟨l, u, t, b1, b2, b3, b0, b4, b5, b6⟩ := h.box j hj
    obtain ⟨⟨c1, c2⟩, c3⟩ := hin ⟨j, hj⟩
    simp only [CONLINV.fixed, getD_of_get b1, getD_of_get b2, getD_of_get b3] at c1 c2 c3
    exact ⟨l, u, t, y ⟨j, hj⟩, b1, b2, b3, ofFn_get y ⟨j, hj⟩, c1, c2, c3⟩
  · subst hv
    refine ⟨?_, h.weights, h.move⟩
    intro j hj
    obtain ⟨l, u, t, b1, b2, b3, b0, b4, b5, b6⟩ := h.box j hj
    obtain ⟨⟨c1, c2⟩, _⟩ := hin ⟨j, hj⟩
    simp only [CONLINV.fixed, getD_of_get b1, getD_of_get b2] at c1 c2
    exact ⟨l, u, y ⟨j, hj⟩, b1, b2, ofFn_get y ⟨j, hj⟩, b0, b4, c1.le, c2.le⟩

/-! ### Cases that meet the hypotheses -/

/-- An object as the sample programs make it: two variables in `[0, 1]` and `[1, 3]`, one constraint; the vector of upper
bounds is longer than it has to be. -/
def vectorExample : MMAV := (MMAV.mk' 2 1 1 [0] [10000] [0] [0, 1] [1, 3, 7]).setParameters 1.0e-5 0.1 0.2 0.5 0.7 1.2 1.0e-6

theorem vectorExample_ready : vectorExample.Ready [0.5, 2] := by
  refine ⟨fun j hj => ?_, by simp [vectorExample, MMAV.mk', MMAV.setParameters],
    by simp [vectorExample, MMAV.mk', MMAV.setParameters], ?_, ?_, ?_, ?_⟩
  · have : j = 0 ∨ j = 1 := by
      have : j < 2 := hj
      omega
    rcases this with rfl | rfl
    · exact ⟨0, 1, 0.5, rfl, rfl, rfl, by norm_num, by norm_num, by norm_num⟩
    · exact ⟨1, 3, 2, rfl, rfl, rfl, by norm_num, by norm_num, by norm_num⟩
  · refine ⟨le_refl 1, le_refl 1, fun i hi => ?_⟩
    have : i = 0 := by
      have : i < 1 := hi
      omega
    subst this
    exact ⟨0, rfl, le_refl _⟩
  all_goals norm_num [vectorExample, MMAV.mk', MMAV.setParameters]

theorem vectorExample_long : LongEnough vectorExample.n vectorExample.m [-1, -2] [0.25] [[1, 1]] := by
  refine ⟨le_refl 2, le_refl 1, fun i hi => ?_⟩
  have : i = 0 := by
    have : i < 1 := hi
    omega
  subst this
  exact ⟨_, rfl, le_refl 2⟩

example : mmaUpdateV vectorExample 40 [0.5, 2] 7 [-1, -2] [0.25] [[1, 1]] ≠ .undefined := by
  rcases C139_safe vectorExample_ready vectorExample_long 40 7 with h | ⟨y, v1, h, _⟩ <;> rw [h] <;> exact fun h => nomatch h

example : ∃ o : MMA 2 1, vectorExample.Represents o := ⟨_, (ready_represents vectorExample_ready).1⟩

example : mmaUpdateV vectorExample 40 [0.5] 7 [-1, -2] [0.25] [[1, 1]] = .undefined :=
  C139_short 40 7 (Or.inl (by norm_num [vectorExample, MMAV.mk', MMAV.setParameters]))

example : mmaUpdateV vectorExample 40 [0.5, 2] 7 [-1, -2] [0.25] [[1]] = .undefined :=
  C139_short 40 7 (Or.inr (Or.inr (Or.inr (Or.inr (Or.inr (Or.inr
    ⟨0, by norm_num [vectorExample, MMAV.mk', MMAV.setParameters], 1,
      by norm_num [vectorExample, MMAV.mk', MMAV.setParameters], fun r hr => by
        simp at hr; subst hr; simp⟩))))))

example : mmaUpdateV { vectorExample with a := [] } 40 [0.5, 2] 7 [-1, -2] [0.25] [[1, 1]] = .undefined :=
  C139_short_weights 39 7 (Or.inl (by norm_num [vectorExample, MMAV.mk', MMAV.setParameters]))

/-- One variable in `[0, 2]` and no constraint: the run of `mmaExample`, on vectors. -/
theorem vectorExample_run : ∃ v1, mmaUpdateV (MMAV.mk' 1 0 1 [] [] [] [0] [2]) 7 [1] 0 [0] [] [] = .done ([1], v1) ∧
    v1.xkm1 = [1] := by
  obtain ⟨o', h⟩ := mmaExample_run
  have hr : (MMAV.mk' 1 0 1 [] [] [] [0] [2]).Represents mmaExample :=
    (C139_made (fun i => i.elim0) (fun i => i.elim0) (fun i => i.elim0)
      (fun i => by rw [Subsingleton.elim i 0]; rfl) (fun i => by rw [Subsingleton.elim i 0]; rfl)).1
  rcases C139_mma (x' := [1]) (dfdx' := [0]) (g' := []) (dgdx' := []) (x := fun _ => 1) (dfdx := fun _ => 0) hr
    (fun i => by rw [Subsingleton.elim i 0]; rfl)
    (fun i => by rw [Subsingleton.elim i 0]; rfl) (fun i => i.elim0) (fun i => i.elim0) 7 0
    (by rw [h]; exact fun h => nomatch h) with ⟨h1, _⟩ | ⟨y, o1, v1, h1, h2, h3⟩
  · rw [h] at h1; exact nomatch h1
  · rw [h] at h1
    simp only [Run.done.injEq, Prod.mk.injEq] at h1
    obtain ⟨rfl, rfl⟩ := h1
    obtain ⟨L, U, hv⟩ := mmaUpdateV_done h2
    exact ⟨v1, h2, by rw [hv]⟩

example : ∃ v1, MMAVCalls (MMAV.mk' 1 0 1 [] [] [] [0] [2]) [1] v1 [1] ∧ v1.k = 1 := by
  obtain ⟨v1, h, _⟩ := vectorExample_run
  obtain ⟨L, U, hv⟩ := mmaUpdateV_done h
  exact ⟨v1, .cons 7 0 [0] [] [] ⟨le_refl 1, le_refl 0, fun i hi => absurd hi (Nat.not_lt_zero i)⟩ h (.nil _ _), by rw [hv]; rfl⟩

example : conlinUpdateV (CONLINV.mk' 1 1 1 [0] [1000] [] [1] [3]) 5 [2] 0 [1] [0] [[1]] = .undefined :=
  C139_conlin_short 4 0 (Or.inr (Or.inr (Or.inr (Or.inr (Or.inr (Or.inr (Or.inr (Or.inl (by norm_num [CONLINV.mk'])))))))))

/-- CONLIN with one variable in `[1, 3]` and one constraint. -/
example : (CONLINV.mk' 1 1 1 [0] [1000] [1] [1] [3]).Ready [2] := by
  refine ⟨fun j hj => ?_, ⟨le_refl 1, le_refl 1, fun i hi => ?_⟩, by norm_num [CONLINV.mk']⟩
  · obtain rfl : j = 0 := by
      have : j < 1 := hj
      omega
    exact ⟨1, 3, 2, rfl, rfl, rfl, by norm_num, by norm_num, by norm_num, by norm_num⟩
  · obtain rfl : i = 0 := by
      have : i < 1 := hi
      omega
    exact ⟨1, rfl, by norm_num⟩

end

end Pansfem
