/-
Effects of accumulating loops, used for the assembling routines.
-/
import Verif.Lemmas.DofTables
import Verif.Lemmas.SparseHistory

namespace Pansfem

variable {K : Type}

/-- The local dofs of an element in the order the loops visit them: node, (dof, local index). -/
def localDofs (nte : List (List (ℕ × ℕ))) (element : List ℕ) : List (ℕ × ℕ × ℕ) :=
  (element.zip nte).flatMap fun p => p.2.map fun d => (p.1, d)

/-- The local dofs of an element with several node lists. -/
def localDofs2 (ntes : List (List (List (ℕ × ℕ)))) (elements : List (List ℕ)) :
    List (ℕ × ℕ × ℕ) :=
  (elements.zip ntes).flatMap fun p => localDofs p.2 p.1

theorem forDofs_eq {S : Type} (nte : List (List (ℕ × ℕ))) (element : List ℕ)
    (hl : element.length ≤ nte.length) (f : ℕ → ℕ × ℕ → S → Option S) (s : S) :
    forDofs nte element f s = (localDofs nte element).foldlM (fun s p => f p.1 p.2 s) s := by
  induction element generalizing nte s with
  | nil => simp [forDofs, localDofs]
  | cons e el ih =>
    cases nte with
    | nil => simp at hl
    | cons d nte =>
      have := ih nte (by simpa using hl)
      unfold forDofs localDofs at this ⊢
      rw [List.length_cons, List.range_succ_eq_map, List.foldlM_cons, List.zip_cons_cons,
        List.flatMap_cons, List.foldlM_append]
      simp only [List.getElem?_cons_zero, Option.bind_eq_bind, Option.bind_some, List.foldlM_map]
      congr 1
      funext s
      rw [← this]
      simp only [List.getElem?_cons_succ, Option.bind_eq_bind]

theorem forDofs2_eq {S : Type} (ntes : List (List (List (ℕ × ℕ)))) (elements : List (List ℕ))
    (hl : List.Forall₂ (fun (el : List ℕ) (nte : List (List (ℕ × ℕ))) => el.length ≤ nte.length)
      elements ntes) (f : ℕ → ℕ × ℕ → S → Option S) (s : S) :
    forDofs2 ntes elements f s
      = (localDofs2 ntes elements).foldlM (fun s p => f p.1 p.2 s) s := by
  induction hl generalizing s with
  | nil => simp [forDofs2, localDofs2]
  | @cons e n el ns h hl ih =>
    unfold forDofs2 localDofs2 at ih ⊢
    rw [List.length_cons, List.range_succ_eq_map, List.foldlM_cons, List.zip_cons_cons,
      List.flatMap_cons, List.foldlM_append, ← forDofs_eq n e h]
    simp only [List.getElem?_cons_zero, Option.bind_eq_bind, Option.bind_some, List.foldlM_map]
    unfold forDofs
    simp only [Option.bind_eq_bind]
    congr 1
    funext s
    rw [← ih]
    simp only [List.getElem?_cons_succ, Option.bind_eq_bind]

/-! ### Effects -/

/-- `step` succeeds on every state satisfying `ok`, keeps it, and adds `e` to what is observed. -/
def HasEff {S M : Type} [AddCommMonoid M] (ok : S → Prop) (obs : S → M) (step : S → Option S) (e : M) :
    Prop :=
  ∀ s, ok s → ∃ s', step s = some s' ∧ ok s' ∧ obs s' = obs s + e

section
variable {S M : Type} [AddCommMonoid M] {ok : S → Prop} {obs : S → M}

theorem HasEff.congr {f : S → Option S} {e e' : M} (h : HasEff ok obs f e) (he : e = e') :
    HasEff ok obs f e' := he ▸ h

theorem hasEff_skip : HasEff ok obs (fun s => some s) 0 := fun s hs => ⟨s, rfl, hs, by simp⟩

theorem hasEff_seq {f g : S → Option S} {e e' : M} (hf : HasEff ok obs f e)
    (hg : HasEff ok obs g e') : HasEff ok obs (fun s => (f s).bind g) (e + e') := by
  intro s hs
  obtain ⟨t, h1, h2, h3⟩ := hf s hs
  obtain ⟨w, g1, g2, g3⟩ := hg t h2
  exact ⟨w, by simp [h1, g1], g2, by rw [g3, h3, add_assoc]⟩

theorem hasEff_foldlM {α : Type} (L : List α) (f : α → S → Option S) (e : α → M)
    (h : ∀ p ∈ L, HasEff ok obs (f p) (e p)) :
    HasEff ok obs (fun s => L.foldlM (fun s p => f p s) s) (L.map e).sum := by
  induction L with
  | nil => intro s hs; exact ⟨s, rfl, hs, by simp⟩
  | cons p L ih =>
    have := hasEff_seq (h p (List.mem_cons_self ..)) (ih fun q hq => h q (List.mem_cons_of_mem _ hq))
    intro s hs
    obtain ⟨s', h1, h2, h3⟩ := this s hs
    exact ⟨s', by simp only [List.foldlM_cons]; exact h1, h2, by rw [List.map_cons, List.sum_cons]; exact h3⟩

end

/-! ### Matrix and vector states -/

/-- What is assembled into: an `N` by `N` matrix. -/
def okK (N : ℕ) (A : LIL K) : Prop := A.WF ∧ A.InBounds ∧ A.rows = N ∧ A.cols = N

/-- Entries of a sparse matrix. -/
def obsK [Zero K] (A : LIL K) : ℕ → ℕ → K := fun i j => (A.get i j).getD 0

/-- Entries of a vector. -/
def obsF [Zero K] (F : List K) : ℕ → K := fun i => F[i]?.getD 0

theorem subscript_nat (i : ℕ) : subscript (i : ℤ) = some i := by simp [subscript]

theorem set_inBounds {A A' : LIL K} {i j : ℕ} {x : K} {b : Bool} (h : A.set i j x = some (A', b))
    (hA : A.InBounds) (hj : j < A.cols) : A'.InBounds ∧ A'.cols = A.cols := by
  unfold LIL.set at h
  simp only [Option.bind_eq_bind, Option.bind_eq_some_iff] at h
  obtain ⟨row, hr, h⟩ := h
  obtain ⟨rfl, -⟩ := Prod.mk.inj (Option.some.inj h)
  refine ⟨?_, rfl⟩
  intro row' hrow' p hp
  simp only at hrow'
  rcases List.mem_or_eq_of_mem_set hrow' with h1 | rfl
  · exact hA row' h1 p hp
  · have hk : p.1 ∈ (rowSet row j x).1.map Prod.fst := List.mem_map.2 ⟨p, hp, rfl⟩
    rw [rowSet_keys] at hk
    split at hk
    · obtain ⟨q, hq, hq'⟩ := List.mem_map.1 hk
      rw [← hq']; exact hA row (List.mem_of_getElem? hr) q hq
    · rcases List.mem_append.1 hk with hk | hk
      · obtain ⟨q, hq, hq'⟩ := List.mem_map.1 hk
        rw [← hq']; exact hA row (List.mem_of_getElem? hr) q hq
      · rw [List.mem_singleton.1 hk]; exact hj

theorem get_none [Zero K] {A : LIL K} (h : A.WF) {i : ℕ} (hi : ¬ i < A.rows) (j : ℕ) :
    A.get i j = none := by
  unfold LIL.get
  rw [List.getElem?_eq_none (by rw [h.1]; omega)]
  rfl

theorem addK_eff [Ring K] {N : ℕ} {i j : ℕ} (hi : i < N) (hj : j < N) (x : K) :
    HasEff (okK N) obsK (fun A => addK A i j x)
      (fun a b => if a = i ∧ b = j then x else 0) := by
  rintro A ⟨h1, h2, h3, h4⟩
  have hH := LIL.holds_of_wf h1
  have hi' : i < A.rows := by omega
  obtain ⟨A', hs, hH'⟩ := LIL.holds_set A.rows A _ i j (obsK A i j + x) hH hi'
  obtain ⟨b1, b2⟩ := set_inBounds hs h2 (by omega)
  have hg : A.get i j = some (obsK A i j) := by
    unfold obsK; rw [LIL.holds_get hH i j hi']; rfl
  refine ⟨A', ?_, ⟨hH'.1, b1, hH'.2.1.trans h3, b2.trans h4⟩, ?_⟩
  · unfold addK
    simp only [subscript_nat, Option.bind_eq_bind, Option.bind_some, hg, hs]
    rfl
  · funext a b
    simp only [Pi.add_apply]
    by_cases ha : a < A.rows
    · have e1 := LIL.holds_get hH' a b ha
      have e2 := LIL.holds_get hH a b ha
      unfold obsK at e1 ⊢
      rw [e1, e2]
      simp only [Option.getD_some]
      by_cases hc : a = i ∧ b = j
      · obtain ⟨rfl, rfl⟩ := hc
        rw [if_pos ⟨rfl, rfl⟩, if_pos ⟨rfl, rfl⟩, e2]
        simp
      · rw [if_neg (fun c => hc ⟨c.1.symm, c.2.symm⟩), if_neg hc, add_zero]
    · unfold obsK
      rw [get_none h1 ha, get_none hH'.1 (by rw [hH'.2.1]; exact ha), if_neg (by omega)]
      simp

theorem addF_eff [Ring K] {N : ℕ} {i : ℕ} (hi : i < N) (x : K) :
    HasEff (fun F : List K => F.length = N) obsF (fun F => addF F i x)
      (fun a => if a = i then x else 0) := by
  intro F hF
  refine ⟨F.set i (F[i]'(by omega) + x), ?_, by simpa using hF, ?_⟩
  · unfold addF
    simp only [subscript_nat, Option.bind_eq_bind, Option.bind_some]
    rw [List.getElem?_eq_getElem (by omega)]
    rfl
  · funext a
    simp only [Pi.add_apply]
    unfold obsF
    by_cases h : a = i
    · subst h
      rw [List.getElem?_set_self (by omega), List.getElem?_eq_getElem (by omega)]
      simp
    · rw [List.getElem?_set_ne (Ne.symm h), if_neg h, add_zero]

theorem subF_eq [Ring K] (F : List K) (g : ℤ) (x : K) : subF F g x = addF F g (-x) := by
  unfold subF addF
  simp only [sub_eq_add_neg]

/-- Both together. -/
def okKF (N : ℕ) (st : LIL K × List K) : Prop := okK N st.1 ∧ st.2.length = N

/-- Entries of both. -/
def obsKF [Zero K] (st : LIL K × List K) : (ℕ → ℕ → K) × (ℕ → K) := (obsK st.1, obsF st.2)

theorem liftK_eff [Ring K] {N : ℕ} {f : LIL K → Option (LIL K)} {e : ℕ → ℕ → K}
    (h : HasEff (okK N) obsK f e) :
    HasEff (okKF N) obsKF (fun st => (f st.1).bind fun A => some (A, st.2)) (e, 0) := by
  rintro ⟨A, F⟩ ⟨h1, h2⟩
  obtain ⟨A', a1, a2, a3⟩ := h A h1
  exact ⟨(A', F), by simp [a1], ⟨a2, h2⟩, by simp [obsKF, a3]⟩

theorem liftF_eff [Ring K] {N : ℕ} {f : List K → Option (List K)} {e : ℕ → K}
    (h : HasEff (fun F : List K => F.length = N) obsF f e) :
    HasEff (okKF N) obsKF (fun st => (f st.2).bind fun F => some (st.1, F)) (0, e) := by
  rintro ⟨A, F⟩ ⟨h1, h2⟩
  obtain ⟨F', a1, a2, a3⟩ := h F h2
  exact ⟨(A, F'), by simp [a1], ⟨h1, a2⟩, by simp [obsKF, a3]⟩

/-! ### The overloads -/

/-- The tables can be read at the local dofs `L`, with the values `num`, `ke`, `uu`; the numbers are
-1 or below `N`. -/
structure Reads (ntg : List (List ℤ)) (u : List (Vec K)) (Ke : Mat K) (L : List (ℕ × ℕ × ℕ)) (N : ℕ)
    (num : ℕ → ℕ → ℤ) (uu : ℕ → ℕ → K) (ke : ℕ → ℕ → K) : Prop where
  num_eq : ∀ p ∈ L, dofNum ntg p.1 p.2.1 = some (num p.1 p.2.1)
  num_range : ∀ p ∈ L, num p.1 p.2.1 = -1 ∨ ∃ I : ℕ, num p.1 p.2.1 = I ∧ I < N
  ke_eq : ∀ p ∈ L, ∀ q ∈ L, Ke.at? p.2.2 q.2.2 = some (ke p.2.2 q.2.2)
  u_eq : ∀ p ∈ L, num p.1 p.2.1 = -1 → nodal u p.1 p.2.1 = some (uu p.1 p.2.1)

section
variable [Ring K]

/-- What row `p` of an element adds to `K`. -/
def rowK (L : List (ℕ × ℕ × ℕ)) (num : ℕ → ℕ → ℤ) (ke : ℕ → ℕ → K) (p : ℕ × ℕ × ℕ) (I J : ℕ) : K :=
  (L.map fun q => if num p.1 p.2.1 = I ∧ num q.1 q.2.1 = J then ke p.2.2 q.2.2 else 0).sum

/-- What the prescribed values take from `F` in row `p`. -/
def rowFu (L : List (ℕ × ℕ × ℕ)) (num : ℕ → ℕ → ℤ) (uu : ℕ → ℕ → K) (ke : ℕ → ℕ → K)
    (p : ℕ × ℕ × ℕ) (I : ℕ) : K :=
  (L.map fun q => if num p.1 p.2.1 = I ∧ num q.1 q.2.1 = -1 then
    ke p.2.2 q.2.2 * uu q.1 q.2.1 else 0).sum

/-- What the element vector adds to `F` in row `p`. -/
def rowFe (num : ℕ → ℕ → ℤ) (fe : ℕ → K) (p : ℕ × ℕ × ℕ) (I : ℕ) : K :=
  if num p.1 p.2.1 = I then fe p.2.2 else 0

theorem sum_fst {α A B : Type} [AddCommMonoid A] [AddCommMonoid B] (L : List α) (f : α → A × B) :
    (L.map f).sum = ((L.map fun p => (f p).1).sum, (L.map fun p => (f p).2).sum) := by
  induction L with
  | nil => rfl
  | cons p L ih => simp only [List.map_cons, List.sum_cons, ih]; rfl

theorem sum_apply1 {α ι A : Type} [AddCommMonoid A] (L : List α) (f : α → ι → A) (i : ι) :
    (L.map f).sum i = (L.map fun p => f p i).sum := by
  induction L with
  | nil => rfl
  | cons p L ih => simp [ih]

theorem sum_zero' {α A : Type} [AddCommMonoid A] (L : List α) (f : α → A) (h : ∀ p ∈ L, f p = 0) :
    (L.map f).sum = 0 := by
  apply List.sum_eq_zero
  intro x hx
  obtain ⟨p, hp, rfl⟩ := List.mem_map.1 hx
  exact h p hp

theorem sum_neg' {α A : Type} [AddCommGroup A] (L : List α) (f : α → A) :
    (L.map fun p => -f p).sum = -(L.map f).sum := by
  induction L with
  | nil => simp
  | cons p L ih => simp [ih, add_comm]

variable {ntg : List (List ℤ)} {u : List (Vec K)} {Ke : Mat K} {L : List (ℕ × ℕ × ℕ)} {N : ℕ}
  {num : ℕ → ℕ → ℤ} {uu : ℕ → ℕ → K} {ke : ℕ → ℕ → K}

theorem asmCol_eff (R : Reads ntg u Ke L N num uu ke) {p : ℕ × ℕ × ℕ} (hp : p ∈ L) {I : ℕ}
    (hI : I < N) {q : ℕ × ℕ × ℕ} (hq : q ∈ L) :
    HasEff (okKF N) obsKF (asmCol u Ke ntg I p.2.2 q.1 q.2)
      (fun a b => if a = I ∧ num q.1 q.2.1 = b then ke p.2.2 q.2.2 else 0,
       fun a => -(if a = I ∧ num q.1 q.2.1 = -1 then ke p.2.2 q.2.2 * uu q.1 q.2.1 else 0)) := by
  rcases R.num_range q hq with h | ⟨J, hJ, hJN⟩
  · have := liftF_eff (addF_eff hI (-(ke p.2.2 q.2.2 * uu q.1 q.2.1)))
    intro st hst
    obtain ⟨st', h1, h2, h3⟩ := this st hst
    refine ⟨st', ?_, h2, ?_⟩
    · unfold asmCol
      simp only [Option.bind_eq_bind, R.num_eq q hq, R.ke_eq p hp q hq, R.u_eq q hq h,
        Option.bind_some]
      rw [if_neg (by simp [h])]
      rw [subF_eq]
      exact h1
    · rw [h3]
      congr 1
      refine Prod.ext ?_ ?_
      · funext a b
        simp only [Pi.zero_apply]
        rw [if_neg]
        rintro ⟨-, c⟩
        omega
      · funext a
        simp only [h, and_true]
        split <;> simp
  · have := liftK_eff (addK_eff hI hJN (ke p.2.2 q.2.2))
    intro st hst
    obtain ⟨st', h1, h2, h3⟩ := this st hst
    refine ⟨st', ?_, h2, ?_⟩
    · unfold asmCol
      simp only [Option.bind_eq_bind, R.num_eq q hq, R.ke_eq p hp q hq, Option.bind_some]
      rw [if_pos (by rw [hJ]; omega), hJ]
      exact h1
    · rw [h3]
      congr 1
      refine Prod.ext ?_ ?_
      · funext a b
        simp only [hJ, Nat.cast_inj, eq_comm (a := J)]
      · funext a
        simp only [Pi.zero_apply]
        rw [if_neg, neg_zero]
        rintro ⟨-, c⟩
        omega

theorem asmRow_eff (R : Reads ntg u Ke L N num uu ke) {p : ℕ × ℕ × ℕ} (hp : p ∈ L) {I : ℕ}
    (hI : I < N) (hn : num p.1 p.2.1 = I) :
    HasEff (okKF N) obsKF
      (fun st => L.foldlM (fun st q => asmCol u Ke ntg I p.2.2 q.1 q.2 st) st)
      (rowK L num ke p, -rowFu L num uu ke p) := by
  refine (hasEff_foldlM L (fun q st => asmCol u Ke ntg I p.2.2 q.1 q.2 st) _
    fun q hq => asmCol_eff R hp hI hq).congr ?_
  rw [sum_fst]
  refine Prod.ext ?_ ?_
  · funext a b
    simp only
    rw [sum_apply1, sum_apply1]
    simp only [rowK, hn, Nat.cast_inj, eq_comm (b := a)]
  · funext a
    simp only
    rw [sum_apply1, sum_neg', Pi.neg_apply]
    simp only [rowFu, hn, Nat.cast_inj, eq_comm (b := a)]

theorem rowK_fixed {p : ℕ × ℕ × ℕ} (h : num p.1 p.2.1 = -1) : rowK L num ke p = 0 := by
  funext a b
  exact sum_zero' _ _ fun q _ => if_neg (by omega)

theorem rowFu_fixed {p : ℕ × ℕ × ℕ} (h : num p.1 p.2.1 = -1) : rowFu L num uu ke p = 0 := by
  funext a
  exact sum_zero' _ _ fun q _ => if_neg (by omega)

theorem rowFe_fixed {fe : ℕ → K} {p : ℕ × ℕ × ℕ} (h : num p.1 p.2.1 = -1) :
    rowFe num fe p = 0 := by
  funext a
  exact if_neg (by omega)

theorem rowFe_free {fe : ℕ → K} {p : ℕ × ℕ × ℕ} {I : ℕ} (h : num p.1 p.2.1 = I) :
    rowFe num fe p = fun a => if a = I then fe p.2.2 else 0 := by
  funext a
  simp only [rowFe, h, Nat.cast_inj, eq_comm (b := a)]

/-- Rows without the element vector. -/
theorem asmKF_row (R : Reads ntg u Ke L N num uu ke) {p : ℕ × ℕ × ℕ} (hp : p ∈ L) :
    HasEff (okKF N) obsKF (fun st => (dofNum ntg p.1 p.2.1).bind fun gi => if gi ≠ -1 then
        L.foldlM (fun st q => asmCol u Ke ntg gi p.2.2 q.1 q.2 st) st else some st)
      (rowK L num ke p, -rowFu L num uu ke p) := by
  rcases R.num_range p hp with h | ⟨I, hI, hIN⟩
  · rw [rowK_fixed h, rowFu_fixed h, neg_zero]
    intro st hst
    exact ⟨st, by simp [R.num_eq p hp, h], hst, (add_zero (obsKF st)).symm⟩
  · have := asmRow_eff R hp hIN hI
    simp only [R.num_eq p hp, hI, Option.bind_some]
    simp only [if_pos (show (I : ℤ) ≠ -1 by omega)]
    exact this

theorem asmKFe_row (R : Reads ntg u Ke L N num uu ke) {Fe : Vec K} {fe : ℕ → K}
    (hfe : ∀ p ∈ L, Fe.at? p.2.2 = some (fe p.2.2)) {p : ℕ × ℕ × ℕ} (hp : p ∈ L) :
    HasEff (okKF N) obsKF (fun st => (dofNum ntg p.1 p.2.1).bind fun gi => if gi ≠ -1 then
        (L.foldlM (fun st q => asmCol u Ke ntg gi p.2.2 q.1 q.2 st) st).bind fun st =>
          (Fe.at? p.2.2).bind fun v => (addF st.2 gi v).bind fun F => some (st.1, F)
        else some st)
      (rowK L num ke p, rowFe num fe p - rowFu L num uu ke p) := by
  have hrow := asmKF_row R hp
  rcases R.num_range p hp with h | ⟨I, hI, hIN⟩
  · rw [rowK_fixed h, rowFu_fixed h, rowFe_fixed h, sub_zero]
    intro st hst
    exact ⟨st, by simp [R.num_eq p hp, h], hst, (add_zero (obsKF st)).symm⟩
  · refine HasEff.congr (f := _) (e := (rowK L num ke p, -rowFu L num uu ke p)
      + (0, rowFe num fe p)) ?_ (Prod.ext (add_zero _) (neg_add_eq_sub _ _))
    rw [rowFe_free hI]
    have := hasEff_seq hrow (liftF_eff (addF_eff hIN (fe p.2.2)))
    intro st hst
    obtain ⟨st', h1, h2, h3⟩ := this st hst
    refine ⟨st', ?_, h2, h3⟩
    rw [← h1]
    simp only [R.num_eq p hp, hI, Option.bind_some, hfe p hp]
    rw [if_pos (by omega), if_pos (by omega)]

/-- Rows of `K` alone. -/
theorem asmK_row' (hn : ∀ p ∈ L, dofNum ntg p.1 p.2.1 = some (num p.1 p.2.1))
    (hN : ∀ p ∈ L, num p.1 p.2.1 = -1 ∨ ∃ I : ℕ, num p.1 p.2.1 = I ∧ I < N)
    (hke : ∀ p ∈ L, ∀ q ∈ L, Ke.at? p.2.2 q.2.2 = some (ke p.2.2 q.2.2)) {p : ℕ × ℕ × ℕ} (hp : p ∈ L) :
    HasEff (okK N) obsK (fun A => (dofNum ntg p.1 p.2.1).bind fun gi => if gi ≠ -1 then
        L.foldlM (fun A q => (dofNum ntg q.1 q.2.1).bind fun gj => if gj ≠ -1 then
          (Ke.at? p.2.2 q.2.2).bind fun v => addK A gi gj v else some A) A else some A)
      (rowK L num ke p) := by
  rcases hN p hp with h | ⟨I, hI, hIN⟩
  · rw [rowK_fixed h]
    intro st hst
    exact ⟨st, by simp [hn p hp, h], hst, (add_zero (obsK st)).symm⟩
  · simp only [hn p hp, hI, Option.bind_some]
    simp only [if_pos (show (I : ℤ) ≠ -1 by omega)]
    refine (hasEff_foldlM L (fun q A => (dofNum ntg q.1 q.2.1).bind fun gj => if gj ≠ -1 then
          (Ke.at? p.2.2 q.2.2).bind fun v => addK A I gj v else some A)
      (fun q (a b : ℕ) => if a = I ∧ num q.1 q.2.1 = b then ke p.2.2 q.2.2 else 0) ?_).congr ?_
    · intro q hq
      simp only [hn q hq, hke p hp q hq, Option.bind_some]
      rcases hN q hq with h | ⟨J, hJ, hJN⟩
      · simp only [h, ne_eq, not_true_eq_false, if_false]
        refine hasEff_skip.congr ?_
        funext a b
        rw [if_neg (by omega)]; rfl
      · simp only [hJ, if_pos (show (J : ℤ) ≠ -1 by omega)]
        refine (addK_eff hIN hJN (ke p.2.2 q.2.2)).congr ?_
        funext a b
        simp only [Nat.cast_inj, eq_comm (a := J)]
    · funext a b
      rw [sum_apply1, sum_apply1]
      simp only [rowK, hI, Nat.cast_inj, eq_comm (b := a)]

/-- Rows of `F` from the element vector. -/
theorem asmFe_row {Fe : Vec K} {fe : ℕ → K} {p : ℕ × ℕ × ℕ}
    (hn : dofNum ntg p.1 p.2.1 = some (num p.1 p.2.1))
    (hr : num p.1 p.2.1 = -1 ∨ ∃ I : ℕ, num p.1 p.2.1 = I ∧ I < N)
    (hfe : Fe.at? p.2.2 = some (fe p.2.2)) :
    HasEff (fun F : List K => F.length = N) obsF
      (fun F => (dofNum ntg p.1 p.2.1).bind fun gi => if gi ≠ -1 then
        (Fe.at? p.2.2).bind fun v => addF F gi v else some F) (rowFe num fe p) := by
  rcases hr with h | ⟨I, hI, hIN⟩
  · rw [rowFe_fixed h]
    intro st hst
    exact ⟨st, by simp [hn, h], hst, (add_zero (obsF st)).symm⟩
  · rw [rowFe_free hI]
    simp only [hn, hI, Option.bind_some, if_pos (show (I : ℤ) ≠ -1 by omega), hfe]
    exact addF_eff hIN _

/-- Rows of `F` from the prescribed values. -/
theorem asmFu_row (R : Reads ntg u Ke L N num uu ke) {p : ℕ × ℕ × ℕ} (hp : p ∈ L) :
    HasEff (fun F : List K => F.length = N) obsF
      (fun F => (dofNum ntg p.1 p.2.1).bind fun gi => if gi ≠ -1 then
        L.foldlM (fun F q => (dofNum ntg q.1 q.2.1).bind fun gj => if gj = -1 then
          (Ke.at? p.2.2 q.2.2).bind fun v => (nodal u q.1 q.2.1).bind fun w =>
            subF F gi (v * w) else some F) F else some F)
      (-rowFu L num uu ke p) := by
  rcases R.num_range p hp with h | ⟨I, hI, hIN⟩
  · rw [rowFu_fixed h, neg_zero]
    intro st hst
    exact ⟨st, by simp [R.num_eq p hp, h], hst, (add_zero (obsF st)).symm⟩
  · simp only [R.num_eq p hp, hI, Option.bind_some]
    simp only [if_pos (show (I : ℤ) ≠ -1 by omega)]
    refine (hasEff_foldlM L (fun q F => (dofNum ntg q.1 q.2.1).bind fun gj => if gj = -1 then
          (Ke.at? p.2.2 q.2.2).bind fun v => (nodal u q.1 q.2.1).bind fun w =>
            subF F I (v * w) else some F)
      (fun q a => -(if a = I ∧ num q.1 q.2.1 = -1 then ke p.2.2 q.2.2 * uu q.1 q.2.1 else 0))
      ?_).congr ?_
    · intro q hq
      simp only [R.num_eq q hq, R.ke_eq p hp q hq, Option.bind_some]
      rcases R.num_range q hq with h | ⟨J, hJ, hJN⟩
      · simp only [h, if_true, R.u_eq q hq h, Option.bind_some, subF_eq]
        refine (addF_eff hIN _).congr ?_
        funext a
        simp only [and_true]
        split <;> simp
      · simp only [hJ, if_neg (show ¬ (J : ℤ) = -1 by omega)]
        refine hasEff_skip.congr ?_
        funext a
        rw [if_neg (by omega), neg_zero]; rfl
    · funext a
      rw [sum_apply1, sum_neg', Pi.neg_apply]
      simp only [rowFu, hI, Nat.cast_inj, eq_comm (b := a)]

end

end Pansfem
