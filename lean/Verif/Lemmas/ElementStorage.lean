/-
Storage-level element routines: what the assignments and the loops of products produce.
-/
import Verif.Model.ElementStorage
import Verif.Model.ProgramMain
import Verif.Lemmas.Element
import Verif.Lemmas.VectorSim
import Verif.Lemmas.ProgramElement
import Verif.Props.C01_Dense
import Verif.Props.C02_Determinant

noncomputable section

namespace Pansfem

open Matrix

variable {K : Type}

/-! ### Loops -/

theorem foldlM_sim {S T α : Type} {e : S → T} {step : S → α → Option S} {step' : T → α → Option T}
    (h : ∀ s a, step' (e s) a = (step s a).map e) (l : List α) (s : S) :
    l.foldlM step' (e s) = (l.foldlM step s).map e := by
  induction l generalizing s with
  | nil => rfl
  | cons a l ih =>
    simp only [List.foldlM_cons]
    rw [h]
    cases step s a with
    | none => rfl
    | some s' => exact ih s'

theorem foldlM_fails {S α : Type} {step : S → α → Option S} {l : List α} {a : α} (ha : a ∈ l)
    (h : ∀ s, step s a = none) (s : S) : l.foldlM step s = none := by
  induction l generalizing s with
  | nil => simp at ha
  | cons b l ih =>
    rw [List.foldlM_cons]
    rcases List.mem_cons.1 ha with rfl | ha
    · rw [h]; rfl
    · cases step s b with
      | none => rfl
      | some s' => exact ih ha s'

/-- A loop that starts from another sum. -/
theorem gauss_from {M : Type} [AddCommMonoid M] {N : ℕ} (term : Fin N → Option M) (a : M) :
    (List.finRange N).foldlM (fun acc g => do return acc + (← term g)) a =
      (gauss N term).map (a + ·) := by
  unfold gauss
  have := foldlM_sim (e := fun s => a + s) (step := fun acc g => do return acc + (← term g))
    (step' := fun acc g => do return acc + (← term g)) (fun s g => by
      cases term g with
      | none => rfl
      | some v => exact congrArg some (add_assoc _ _ _)) (List.finRange N) 0
  rw [← this, add_zero]

/-! ### Assignments -/

/-- What a run of assignments leaves. -/
def written {r c : ℕ} (l : List (ℕ × ℕ × K)) (M : Matrix (Fin r) (Fin c) K) :
    Matrix (Fin r) (Fin c) K :=
  l.foldl (fun M p => Matrix.of fun i j => if (i : ℕ) = p.1 ∧ (j : ℕ) = p.2.1 then p.2.2 else M i j) M

theorem assigns_dense {r c : ℕ} (l : List (ℕ × ℕ × K)) (M : Matrix (Fin r) (Fin c) K)
    (h : ∀ p ∈ l, p.1 < r ∧ p.2.1 < c) :
    assigns (dense M) (l.map fun p => (p.1, p.2.1, some p.2.2)) = some (dense (written l M)) := by
  induction l generalizing M with
  | nil => rfl
  | cons p l ih =>
    have hp := h p (by simp)
    have hw := C01_mat_write M ⟨p.1, hp.1⟩ ⟨p.2.1, hp.2⟩ p.2.2
    unfold assigns at ih ⊢
    rw [List.map_cons, List.foldlM_cons]
    refine bind_value (t := dense (Matrix.of fun i j =>
      if (i : ℕ) = p.1 ∧ (j : ℕ) = p.2.1 then p.2.2 else M i j)) ?_ (ih _ fun q hq => h q (by simp [hq]))
    refine hw.trans ?_
    simp only [Fin.ext_iff]

theorem assigns_fails {l : List (ℕ × ℕ × Option K)} {p : ℕ × ℕ × Option K} (hp : p ∈ l)
    (h : p.2.2 = none) (A : Mat K) : assigns A l = none :=
  foldlM_fails hp (fun s => by rw [h]; rfl) A

/-- A loop over the nodes that writes the columns of each node. -/
theorem blocks_dense [Zero K] {R n k : ℕ} (f : Matrix (Fin R) (Fin n × Fin k) K)
    (step : Mat K → ℕ → Option (Mat K))
    (h : ∀ (M : Matrix (Fin R) (Fin (n * k)) K) (i : Fin n), step (dense M) i =
      some (dense (Matrix.of fun r c => if (finProdFinEquiv.symm c).1 = i then f r (finProdFinEquiv.symm c)
        else M r c))) :
    (List.range n).foldlM step (Mat.zeros R (n * k)) =
      some (dense (f.submatrix id finProdFinEquiv.symm)) := by
  rw [C01_mat_zeros]
  have key : ∀ m, m ≤ n → (List.range m).foldlM step (dense (0 : Matrix (Fin R) (Fin (n * k)) K)) =
      some (dense (Matrix.of fun r c => if ((finProdFinEquiv.symm c).1 : ℕ) < m then f r (finProdFinEquiv.symm c)
        else 0)) := by
    intro m
    induction m with
    | zero => intro _; simp; rfl
    | succ m ih =>
      intro hm
      rw [List.range_succ, List.foldlM_append, ih (by omega)]
      simp only [List.foldlM_cons, List.foldlM_nil, Option.bind_eq_bind, Option.bind_some]
      rw [h _ ⟨m, hm⟩]
      simp only [Option.bind_some]
      show some _ = some _
      congr 2
      ext r c
      simp only [Matrix.of_apply, Fin.ext_iff]
      by_cases h1 : ((finProdFinEquiv.symm c).1 : ℕ) = m
      · rw [if_pos h1, if_pos (by omega)]
      · by_cases h2 : ((finProdFinEquiv.symm c).1 : ℕ) < m
        · rw [if_neg h1, if_pos h2, if_pos (by omega)]
        · rw [if_neg h1, if_neg h2, if_neg (by omega)]
  rw [key n le_rfl]
  congr 2
  ext r c
  exact if_pos (finProdFinEquiv.symm c).1.2

theorem column_eq {n k : ℕ} (c : Fin (n * k)) (i : Fin n) (j : ℕ) (hj : j < k) :
    ((c : ℕ) = k * i + j) ↔ (finProdFinEquiv.symm c).1 = i ∧ ((finProdFinEquiv.symm c).2 : ℕ) = j := by
  constructor
  · intro h
    have : c = finProdFinEquiv (i, ⟨j, hj⟩) := by
      ext; rw [h]; simp [finProdFinEquiv, Nat.add_comm]
    rw [this]; simp
  · rintro ⟨h1, h2⟩
    have := congrArg Fin.val (Equiv.apply_symm_apply finProdFinEquiv c)
    rw [finProdFinEquiv_apply_val, h1, h2] at this
    omega

/-! ### Coordinates and tables -/

theorem allSome_none {n : ℕ} {α : Type} {f : Fin n → Option α} (h : allSome f = none) :
    ∃ i, f i = none := by
  unfold allSome at h
  split at h
  · cases h
  · rename_i hs
    push Not at hs
    obtain ⟨i, hi⟩ := hs
    exact ⟨i, by simpa using hi⟩

/-- An entry that the assignments give one value. -/
theorem written_mem {r c : ℕ} {l : List (ℕ × ℕ × K)} {M : Matrix (Fin r) (Fin c) K} {i : Fin r} {j : Fin c}
    {v : K} (h : ∀ p ∈ l, p.1 = i → p.2.1 = j → p.2.2 = v) (he : ∃ p ∈ l, p.1 = i ∧ p.2.1 = j) :
    written l M i j = v := by
  induction l using List.reverseRecOn with
  | nil => simp at he
  | append_singleton l p ih =>
    unfold written at ih ⊢
    rw [List.foldl_append]
    simp only [List.foldl_cons, List.foldl_nil, Matrix.of_apply]
    split
    · rename_i hp
      exact h p (by simp) hp.1.symm hp.2.symm
    · rename_i hp
      refine ih (fun q hq => h q (by simp [hq])) ?_
      obtain ⟨q, hq, h1, h2⟩ := he
      rcases List.mem_append.1 hq with hq | hq
      · exact ⟨q, hq, h1, h2⟩
      · rw [List.mem_singleton.1 hq] at h1 h2
        exact absurd ⟨h1.symm, h2.symm⟩ hp

/-- An entry that no assignment touches. -/
theorem written_not {r c : ℕ} {l : List (ℕ × ℕ × K)} {M : Matrix (Fin r) (Fin c) K} {i : Fin r} {j : Fin c}
    (h : ∀ p ∈ l, ¬ (p.1 = i ∧ p.2.1 = j)) : written l M i j = M i j := by
  induction l using List.reverseRecOn with
  | nil => rfl
  | append_singleton l p ih =>
    unfold written at ih ⊢
    rw [List.foldl_append]
    simp only [List.foldl_cons, List.foldl_nil, Matrix.of_apply]
    rw [if_neg fun hp => h p (by simp) ⟨hp.1.symm, hp.2.symm⟩]
    exact ih fun q hq => h q (by simp [hq])

/-- Assignments to all entries, row by row. -/
def entriesOf {r c : ℕ} (M : Matrix (Fin r) (Fin c) K) : List (ℕ × ℕ × Option K) :=
  (List.finRange r).flatMap fun i : Fin r => (List.finRange c).map fun j : Fin c => ((i : ℕ), (j : ℕ), some (M i j))

theorem assigns_all {r c : ℕ} (M M0 : Matrix (Fin r) (Fin c) K) :
    assigns (dense M0) (entriesOf M) = some (dense M) := by
  have e : entriesOf M = ((List.finRange r).flatMap fun i : Fin r => (List.finRange c).map fun j : Fin c =>
      ((i : ℕ), (j : ℕ), M i j)).map fun p => (p.1, p.2.1, some p.2.2) := by
    simp [entriesOf, List.map_flatMap, Function.comp_def]
  rw [e, assigns_dense]
  · congr 2
    ext i j
    refine written_mem ?_ ?_
    · intro p hp h1 h2
      obtain ⟨i', _, hp⟩ := List.mem_flatMap.1 hp
      obtain ⟨j', _, rfl⟩ := List.mem_map.1 hp
      rw [show i' = i from Fin.ext h1, show j' = j from Fin.ext h2]
    · exact ⟨_, List.mem_flatMap.2 ⟨i, List.mem_finRange i, List.mem_map.2 ⟨j, List.mem_finRange j, rfl⟩⟩,
        rfl, rfl⟩
  · intro p hp
    obtain ⟨i, _, hp⟩ := List.mem_flatMap.1 hp
    obtain ⟨j, _, rfl⟩ := List.mem_map.1 hp
    exact ⟨i.2, j.2⟩

theorem coordsS_eq [Zero K] (x : List (Vec K)) (element : List ℕ) (d : ℕ) :
    coordsS x element d = (gather x element element.length d).map dense := by
  have hg0 : gather x element element.length d = allSome fun i : Fin element.length =>
      allSome fun k : Fin d => (do nodal x (← element[(i : ℕ)]?) k) := if_pos rfl
  rw [hg0]
  clear hg0
  set n := element.length with hn
  have hr : coordsS x element d = (List.range n).foldlM (fun X i => assigns X ((List.range d).map fun k =>
    (i, k, do nodal x (← element[i]?) k))) (Mat.zeros n d) := rfl
  rw [hr]
  cases hg : allSome fun i : Fin n => allSome fun k : Fin d => do nodal x (← element[(i : ℕ)]?) k with
  | none =>
    obtain ⟨i, hi⟩ := allSome_none hg
    obtain ⟨k, hk⟩ := allSome_none hi
    refine foldlM_fails (List.mem_range.2 i.2) (fun s => assigns_fails (p := (i, k, none)) ?_ rfl s) _
    refine List.mem_map.2 ⟨k, List.mem_range.2 k.2, ?_⟩
    exact congrArg (fun v => ((i : ℕ), (k : ℕ), v)) hk
  | some X =>
    have hX : ∀ i k, (do nodal x (← element[((i : Fin n) : ℕ)]?) ((k : Fin d) : ℕ)) = some (X i k) :=
      fun i k => allSome_eq_some.1 (allSome_eq_some.1 hg i) k
    rw [C01_mat_zeros]
    have key : ∀ m, m ≤ n → (List.range m).foldlM (fun X i => assigns X ((List.range d).map fun k =>
        (i, k, do nodal x (← element[i]?) k))) (dense (0 : Matrix (Fin n) (Fin d) K)) =
        some (dense (Matrix.of fun (i : Fin n) k => if (i : ℕ) < m then X i k else 0)) := by
      intro m
      induction m with
      | zero => intro _; simp; rfl
      | succ m ih =>
        intro hm
        rw [List.range_succ, List.foldlM_append, ih (by omega)]
        have e : ((List.range d).map fun k => (m, k, do nodal x (← element[m]?) k)) =
            ((List.finRange d).map fun k : Fin d => (m, (k : ℕ), X ⟨m, hm⟩ k)).map
              fun p => (p.1, p.2.1, some p.2.2) := by
          rw [← List.map_coe_finRange_eq_range, List.map_map, List.map_map]
          refine List.map_congr_left fun k _ => ?_
          exact congrArg (fun v => (m, (k : ℕ), v)) (hX ⟨m, hm⟩ k)
        simp only [List.foldlM_cons, List.foldlM_nil, Option.bind_eq_bind, Option.bind_some]
        rw [show ((List.range d).map fun k => (m, k, element[m]?.bind fun e => nodal x e k)) = _ from e,
          assigns_dense _ _ (by
            intro p hp
            obtain ⟨k, _, rfl⟩ := List.mem_map.1 hp
            exact ⟨hm, k.2⟩)]
        show some _ = some _
        congr 2
        ext i k
        by_cases h1 : (i : ℕ) = m
        · rw [written_mem (v := X i k)]
          · rw [Matrix.of_apply, if_pos (by omega)]
          · intro p hp _ h2
            obtain ⟨k', _, rfl⟩ := List.mem_map.1 hp
            have : k' = k := Fin.ext h2
            subst this
            have : (⟨m, hm⟩ : Fin n) = i := Fin.ext h1.symm
            rw [this]
          · exact ⟨_, List.mem_map.2 ⟨k, List.mem_finRange k, rfl⟩, h1.symm, rfl⟩
        · rw [written_not, Matrix.of_apply, Matrix.of_apply]
          · by_cases h2 : (i : ℕ) < m
            · rw [if_pos h2, if_pos (by omega)]
            · rw [if_neg h2, if_neg (by omega)]
          · rintro p hp ⟨h2, _⟩
            obtain ⟨k', _, rfl⟩ := List.mem_map.1 hp
            exact h1 h2.symm
    rw [key n le_rfl]
    refine congrArg (fun M : Matrix (Fin n) (Fin d) K => some (dense M)) ?_
    ext i k
    exact if_pos i.2

theorem tableRow {k : ℕ} {doulist : List ℕ} (hd : doulist.length = k) (t : List (List (ℕ × ℕ))) (i : ℕ)
    (ht : t[i]? = some (List.replicate k (0, 0))) (m : ℕ) (hm : m ≤ k) :
    (List.range m).foldlM (fun t j => do tablePut t i j (← doulist[j]?, k * i + j)) t =
      some (t.set i ((List.range k).map fun j => if j < m then (doulist.getD j 0, k * i + j) else (0, 0))) := by
  obtain ⟨hi, hti⟩ := List.getElem?_eq_some_iff.1 ht
  induction m with
  | zero =>
    simp only [List.range_zero, List.foldlM_nil, Nat.not_lt_zero, if_false]
    show some _ = some _
    rw [List.map_const', List.length_range, ← hti, List.set_getElem_self]
  | succ m ih =>
    rw [List.range_succ, List.foldlM_append, ih (by omega)]
    have hdm : doulist[m]? = some (doulist.getD m 0) := by
      rw [List.getD_eq_getElem?_getD]
      have : m < doulist.length := by omega
      simp [this]
    simp only [List.foldlM_cons, List.foldlM_nil, Option.bind_eq_bind, Option.bind_some, hdm]
    unfold tablePut
    simp only [List.getElem?_set_self hi, Option.bind_eq_bind, Option.bind_some, List.length_map,
      List.length_range, if_pos (show m < k by omega), List.set_set]
    show some _ = some _
    congr 2
    apply List.ext_getElem
    · simp
    · intro j h1 h2
      simp only [List.getElem_set, List.getElem_map, List.getElem_range]
      by_cases h : m = j
      · rw [if_pos h, if_pos (by omega), h]
      · rw [if_neg h]
        by_cases h' : j < m
        · rw [if_pos h', if_pos (by omega)]
        · rw [if_neg h', if_neg (by omega)]

theorem tableS_eq (k : ℕ) (element doulist : List ℕ) :
    tableS k element doulist = interleaved k element.length doulist := by
  unfold tableS interleaved
  by_cases hd : doulist.length = k
  · rw [if_pos hd, if_pos hd]
    generalize element.length = n
    have key : ∀ m, m ≤ n → (List.range m).foldlM (fun t i => (List.range k).foldlM (fun t j => do
        tablePut t i j (← doulist[j]?, k * i + j)) t) (List.replicate n (List.replicate k (0, 0))) =
        some ((List.range n).map fun i => if i < m then
          (List.range k).map fun j => (doulist.getD j 0, k * i + j) else List.replicate k (0, 0)) := by
      intro m
      induction m with
      | zero =>
        intro _
        simp only [List.range_zero, List.foldlM_nil, Nat.not_lt_zero, if_false, List.map_const',
          List.length_range]
        rfl
      | succ m ih =>
        intro hm
        rw [List.range_succ, List.foldlM_append, ih (by omega)]
        simp only [List.foldlM_cons, List.foldlM_nil, Option.bind_eq_bind, Option.bind_some]
        have := tableRow hd ((List.range n).map fun i => if i < m then
          (List.range k).map fun j => (doulist.getD j 0, k * i + j) else List.replicate k (0, 0)) m (by
            rw [List.getElem?_map, List.getElem?_range (by omega)]; simp) k le_rfl
        simp only [Option.bind_eq_bind] at this
        rw [this]
        show some _ = some _
        congr 1
        apply List.ext_getElem
        · simp
        · intro i h1 h2
          simp only [List.getElem_set, List.getElem_map, List.getElem_range]
          by_cases h : m = i
          · rw [if_pos h, if_pos (by omega), h]
            refine List.map_congr_left fun j hj => ?_
            rw [if_pos (List.mem_range.1 hj)]
          · rw [if_neg h]
            by_cases h' : i < m
            · rw [if_pos h', if_pos (by omega)]
            · rw [if_neg h', if_neg (by omega)]
    rw [key n le_rfl]
    congr 1
    refine List.map_congr_left fun i hi => ?_
    rw [if_pos (List.mem_range.1 hi)]
    apply List.ext_getElem
    · simp [hd]
    · intro j h1 h2
      have hj : j < doulist.length := by simpa using h2
      simp [List.getElem?_eq_getElem hj]
  · rw [if_neg hd, if_neg hd]

end Pansfem
