/-
The `Assembling` calls of the element loops in terms of the element matrices.
-/
import Verif.Model.ProgramMain
import Verif.Spec.Program
import Verif.Lemmas.Shell
import Verif.Lemmas.ShiftLanczos
import Verif.Props.C32_Symmetry
import Verif.Props.C34_Energy

namespace Pansfem

open Matrix

variable {K : Type} {n d k : ℕ}

/-- The table built by the element routines. -/
def interTable (k n : ℕ) (doulist : List ℕ) : List (List (ℕ × ℕ)) :=
  (List.range n).map fun i => doulist.mapIdx fun j dou => (dou, k * i + j)

theorem interleaved_eq_some {dl : List ℕ} {nte : List (List (ℕ × ℕ))} :
    interleaved k n dl = some nte ↔ dl.length = k ∧ nte = interTable k n dl := by
  unfold interleaved interTable
  split_ifs with h
  · simp [h, eq_comm]
  · simp [h]

theorem zip_map_range {e : List ℕ} {α : Type} (g : ℕ → α) (h : e.length = n) :
    e.zip ((List.range n).map g) = (List.finRange n).map fun i : Fin n => (e[(i : ℕ)]'(by rw [h]; exact i.2), g i) := by
  apply List.ext_getElem
  · simp [h]
  · intro i h1 h2
    simp

theorem mapIdx_finRange {dl : List ℕ} {α : Type} (g : ℕ → ℕ → α) (h : dl.length = k) :
    dl.mapIdx g = (List.finRange k).map fun j : Fin k => g j (dl[(j : ℕ)]'(by rw [h]; exact j.2)) := by
  apply List.ext_getElem
  · simp [h]
  · intro i h1 h2
    simp

theorem localDofs_inter {e dl : List ℕ} (he : e.length = n) (hd : dl.length = k) :
    localDofs (interTable k n dl) e = (List.finRange n).flatMap fun i : Fin n => (List.finRange k).map fun j : Fin k =>
      (e[(i : ℕ)]'(by rw [he]; exact i.2), dl[(j : ℕ)]'(by rw [hd]; exact j.2), k * (i : ℕ) + j) := by
  unfold localDofs interTable
  rw [zip_map_range _ he, List.flatMap_map]
  refine List.flatMap_congr fun i _ => ?_
  simp only [mapIdx_finRange _ hd, List.map_map]
  rfl

theorem sum_flatMap_map {α : Type} [AddCommMonoid K] (f : Fin n → Fin k → α) (g : α → K) :
    ((((List.finRange n).flatMap fun i => (List.finRange k).map fun j => f i j)).map g).sum =
      ∑ i, ∑ j, g (f i j) := by
  rw [List.map_flatMap, List.flatMap_def, List.sum_flatten, List.map_map, ← Fin.sum_univ_def]
  refine Finset.sum_congr rfl fun i _ => ?_
  rw [Fin.sum_univ_def]
  simp [List.map_map, Function.comp_def]

theorem finProd_val (p : Fin n × Fin k) : ((finProdFinEquiv p : Fin (n * k)) : ℕ) = k * (p.1 : ℕ) + p.2 := by
  rw [finProdFinEquiv_apply_val]; ring

theorem flatM_entry (A : Matrix (Fin n × Fin k) (Fin n × Fin k) K) (p q : Fin n × Fin k) :
    (flatM A).at? ((k * (p.1 : ℕ) + p.2 : ℕ) : ℤ) ((k * (q.1 : ℕ) + q.2 : ℕ) : ℤ) = some (A p q) := by
  rw [← finProd_val p, ← finProd_val q, flatM_at?]
  simp

theorem flatV_entry (f : Fin n × Fin k → K) (p : Fin n × Fin k) :
    (flatV f).at? ((k * (p.1 : ℕ) + p.2 : ℕ) : ℤ) = some (f p) := by
  rw [← finProd_val p, Vec.at?, if_pos ⟨Int.natCast_nonneg _, by
    simp only [flatV, Vec.size, List.length_ofFn]; exact_mod_cast (finProdFinEquiv p).2⟩, Int.toNat_natCast]
  simp only [flatV, List.getElem?_ofFn]
  rw [dif_pos (finProdFinEquiv p).2]
  simp only [Fin.eta, Equiv.symm_apply_apply]

/-- The values of a field at the local dofs. -/
def localField (dl e : List ℕ) (v : ℕ → ℕ → K) (p : Fin n × Fin k) : K :=
  v (e[(p.1 : ℕ)]?.getD 0) (dl[(p.2 : ℕ)]?.getD 0)

/-- The energy of one call. -/
def callEnergy [Ring K] (c : AsmCall K) (v w : ℕ → ℕ → K) : K :=
  (c.dofs.map fun p => v p.1 p.2.1 * (c.dofs.map fun q => c.mat p.2.2 q.2.2 * w q.1 q.2.1).sum).sum

theorem energy_eq [Ring K] (calls : List (AsmCall K)) (v w : ℕ → ℕ → K) :
    energy calls v w = (calls.map fun c => callEnergy c v w).sum := rfl

theorem matrix_energy [CommRing K] (A : Matrix (Fin n × Fin k) (Fin n × Fin k) K) {e dl : List ℕ}
    (he : e.length = n) (hd : dl.length = k) (v w : ℕ → ℕ → K) :
    callEnergy (.matrix (flatM A) (interTable k n dl) e) v w =
      localField dl e v ⬝ᵥ (A *ᵥ localField dl e w) := by
  have hl : ∀ (v : ℕ → ℕ → K) (i : Fin n) (j : Fin k), v (e[(i : ℕ)]'(by rw [he]; exact i.2))
      (dl[(j : ℕ)]'(by rw [hd]; exact j.2)) = localField dl e v (i, j) := by
    intro v i j
    have h1 : (i : ℕ) < e.length := by rw [he]; exact i.2
    have h2 : (j : ℕ) < dl.length := by rw [hd]; exact j.2
    simp [localField, h1, h2]
  unfold callEnergy
  simp only [AsmCall.dofs]
  rw [localDofs_inter he hd, sum_flatMap_map, dotProduct, Fintype.sum_prod_type]
  refine Finset.sum_congr rfl fun i _ => Finset.sum_congr rfl fun j _ => ?_
  rw [hl v]
  congr 1
  rw [sum_flatMap_map, mulVec, dotProduct, Fintype.sum_prod_type]
  refine Finset.sum_congr rfl fun i' _ => Finset.sum_congr rfl fun j' _ => ?_
  rw [hl w]
  congr 1
  simp only [AsmCall.mat]
  rw [flatM_entry A (i, j) (i', j')]
  rfl

/-! ### Calls from an element loop -/

theorem mapM_mem_of {α β : Type} {f : α → Option β} : ∀ {l : List α} {r : List β}, l.mapM f = some r →
    ∀ a ∈ l, ∃ b ∈ r, f a = some b := by
  intro l
  induction l with
  | nil => intro r _ a ha; simp at ha
  | cons x l ih =>
    intro r h a ha
    simp only [List.mapM_cons, Option.pure_def, Option.bind_eq_bind, Option.bind_eq_some_iff] at h
    obtain ⟨b, hb, s, hs, h⟩ := h
    cases h
    rcases List.mem_cons.1 ha with rfl | ha
    · exact ⟨b, by simp, hb⟩
    · obtain ⟨b', hb', h'⟩ := ih hs a ha
      exact ⟨b', by simp [hb'], h'⟩

theorem mapM_isSome {α β : Type} {f : α → Option β} {l : List α} (h : ∀ a ∈ l, (f a).isSome) :
    (l.mapM f).isSome := by
  induction l with
  | nil => rfl
  | cons x l ih =>
    obtain ⟨b, hb⟩ := Option.isSome_iff_exists.1 (h x (by simp))
    obtain ⟨r, hr⟩ := Option.isSome_iff_exists.1 (ih fun a ha => h a (by simp [ha]))
    simp [List.mapM_cons, hb, hr]

/-- The call of the element loop for the element `e`. -/
def ElemCall (core : Matrix (Fin n) (Fin d) K → Option (Matrix (Fin n × Fin k) (Fin n × Fin k) K))
    (dl : List ℕ) (x : List (Vec K)) (e : List ℕ) (c : AsmCall K) : Prop :=
  ∃ X A, gather x e n d = some X ∧ core X = some A ∧ c = .matrix (flatM A) (interTable k n dl) e

theorem gather_length {x : List (Vec K)} {e : List ℕ} {X : Matrix (Fin n) (Fin d) K}
    (h : gather x e n d = some X) : e.length = n := by
  by_contra hne
  simp [gather, hne] at h

theorem gather_eq {x : List (Vec K)} {e : List ℕ} (h : e.length = n) :
    gather x e n d = (allSome fun i : Fin n => allSome fun j : Fin d => e[(i : ℕ)]?.bind fun m => nodal x m j :
      Option (Fin n → Fin d → K)) := by
  unfold gather
  exact if_pos h

theorem gather_entry {x : List (Vec K)} {e : List ℕ} {X : Matrix (Fin n) (Fin d) K}
    (h : gather x e n d = some X) (i : Fin n) (j : Fin d) :
    nodal x (e[(i : ℕ)]?.getD 0) j = some (X i j) := by
  have hl := gather_length h
  have h := (gather_eq hl).symm.trans h
  have h1 := allSome_eq_some.1 (allSome_eq_some.1 h i) j
  have h2 : (i : ℕ) < e.length := by rw [hl]; exact i.2
  rw [List.getElem?_eq_getElem h2] at h1 ⊢
  simpa using h1

theorem gather_isSome {x : List (Vec K)} {e : List ℕ} (he : e.length = n)
    (h : ∀ m ∈ e, ∀ j : Fin d, (nodal x m j).isSome) : (gather x e n d).isSome := by
  rw [gather_eq he]
  refine Option.isSome_iff_exists.2 ⟨fun i j => ((nodal x (e[(i : ℕ)]?.getD 0) j).get
    (h _ (by
      have h2 : (i : ℕ) < e.length := by rw [he]; exact i.2
      rw [List.getElem?_eq_getElem h2]
      exact List.getElem_mem h2) j)), ?_⟩
  refine allSome_eq_some.2 fun i => allSome_eq_some.2 fun j => ?_
  have h2 : (i : ℕ) < e.length := by rw [he]; exact i.2
  simp [List.getElem?_eq_getElem h2]

variable {core : Matrix (Fin n) (Fin d) K → Option (Matrix (Fin n × Fin k) (Fin n × Fin k) K)}
  {dl : List ℕ} {x : List (Vec K)} {elements : List (List ℕ)} {calls : List (AsmCall K)}

theorem elemM_eq_some {e : List ℕ} {Ke : Mat K} {nte : List (List (ℕ × ℕ))} :
    elemM k core e dl x = some (Ke, nte) ↔ dl.length = k ∧ ∃ X A, gather x e n d = some X ∧ core X = some A ∧
      Ke = flatM A ∧ nte = interTable k n dl := by
  simp only [elemM, Option.bind_eq_bind, Option.pure_def, Option.bind_eq_some_iff, interleaved_eq_some,
    Option.some.injEq, Prod.mk.injEq]
  constructor
  · rintro ⟨t, ⟨h1, rfl⟩, X, hX, A, hA, rfl, rfl⟩
    exact ⟨h1, X, A, hX, hA, rfl, by rw [gather_length hX]⟩
  · rintro ⟨h1, X, A, hX, hA, rfl, rfl⟩
    exact ⟨_, ⟨h1, rfl⟩, X, hX, A, hA, rfl, by rw [gather_length hX]⟩

theorem matrixCalls_some (h : matrixCalls k core dl x elements = some calls) :
    (∀ c ∈ calls, dl.length = k ∧ ∃ e ∈ elements, ElemCall core dl x e c) ∧
    (∀ e ∈ elements, ∃ c ∈ calls, ElemCall core dl x e c) := by
  have key : ∀ (e : List ℕ) (c : AsmCall K), ((elemM k core e dl x).bind fun r => some (AsmCall.matrix r.1 r.2 e)) = some c → dl.length = k ∧ ElemCall core dl x e c := by
    intro e c hc
    simp only [Option.bind_eq_some_iff, Prod.exists, Option.some.injEq] at hc
    obtain ⟨Ke, nte, h1, rfl⟩ := hc
    obtain ⟨h2, X, A, hX, hA, rfl, rfl⟩ := elemM_eq_some.1 h1
    exact ⟨h2, X, A, hX, hA, rfl⟩
  unfold matrixCalls at h
  refine ⟨fun c hc => ?_, fun e he => ?_⟩
  · obtain ⟨e, he, h1⟩ := mapM_mem h c hc
    exact ⟨(key e c h1).1, e, he, (key e c h1).2⟩
  · obtain ⟨c, hc, h1⟩ := mapM_mem_of h e he
    exact ⟨c, hc, (key e c h1).2⟩

theorem matrixCalls_isSome (hd : dl.length = k) (h : ∀ e ∈ elements, ∃ X A, gather x e n d = some X ∧
    core X = some A) : (matrixCalls k core dl x elements).isSome := by
  refine mapM_isSome fun e he => ?_
  obtain ⟨X, A, hX, hA⟩ := h e he
  rw [(elemM_eq_some (core := core)).2 ⟨hd, X, A, hX, hA, rfl, rfl⟩]
  rfl

/-! ### Load calls -/

/-- The call of the load loop for the element `e`. -/
def LoadCall (core : Matrix (Fin n) (Fin d) K → Option (Fin n × Fin k → K))
    (dl : List ℕ) (x : List (Vec K)) (e : List ℕ) (c : AsmCall K) : Prop :=
  ∃ X f, gather x e n d = some X ∧ core X = some f ∧ c = .load (flatV f) (interTable k n dl) e

variable {vcore : Matrix (Fin n) (Fin d) K → Option (Fin n × Fin k → K)}

theorem elemV_eq_some {e : List ℕ} {Fe : Vec K} {nte : List (List (ℕ × ℕ))} :
    elemV k vcore e dl x = some (Fe, nte) ↔ dl.length = k ∧ ∃ X f, gather x e n d = some X ∧ vcore X = some f ∧
      Fe = flatV f ∧ nte = interTable k n dl := by
  simp only [elemV, Option.bind_eq_bind, Option.pure_def, Option.bind_eq_some_iff, interleaved_eq_some,
    Option.some.injEq, Prod.mk.injEq]
  constructor
  · rintro ⟨t, ⟨h1, rfl⟩, X, hX, A, hA, rfl, rfl⟩
    exact ⟨h1, X, A, hX, hA, rfl, by rw [gather_length hX]⟩
  · rintro ⟨h1, X, A, hX, hA, rfl, rfl⟩
    exact ⟨_, ⟨h1, rfl⟩, X, hX, A, hA, rfl, by rw [gather_length hX]⟩

theorem loadCalls_some (h : loadCalls k vcore dl x elements = some calls) :
    ∀ c ∈ calls, dl.length = k ∧ ∃ e ∈ elements, LoadCall vcore dl x e c := by
  unfold loadCalls at h
  intro c hc
  obtain ⟨e, he, h1⟩ := mapM_mem h c hc
  simp only [Option.bind_eq_bind, Option.pure_def, Option.bind_eq_some_iff, Prod.exists, Option.some.injEq] at h1
  obtain ⟨Fe, nte, h1, rfl⟩ := h1
  obtain ⟨h2, X, f, hX, hf, rfl, rfl⟩ := elemV_eq_some.1 h1
  exact ⟨h2, e, he, X, f, hX, hf, rfl⟩

theorem loadCalls_isSome (hd : dl.length = k) (h : ∀ e ∈ elements, ∃ X f, gather x e n d = some X ∧
    vcore X = some f) : (loadCalls k vcore dl x elements).isSome := by
  refine mapM_isSome fun e he => ?_
  obtain ⟨X, A, hX, hA⟩ := h e he
  rw [(elemV_eq_some (vcore := vcore)).2 ⟨hd, X, A, hX, hA, rfl, rfl⟩]
  rfl

/-! ### The data fit -/

theorem mem_localDofs_inter {e : List ℕ} (he : e.length = n) (hd : dl.length = k) {p : ℕ × ℕ × ℕ} :
    p ∈ localDofs (interTable k n dl) e ↔ ∃ (i : Fin n) (j : Fin k),
      p = (e[(i : ℕ)]'(by rw [he]; exact i.2), dl[(j : ℕ)]'(by rw [hd]; exact j.2), k * (i : ℕ) + j) := by
  rw [localDofs_inter he hd]
  simp [List.mem_flatMap, eq_comm]

theorem interTable_length : (interTable k n dl).length = n := by simp [interTable]

theorem dofNum_freeTable {N : ℕ} {m j : ℕ} (hm : m < N) (hj : j < k) : dofNum (freeTable N k) m j = some 0 := by
  simp [freeTable, dofNum, hm, hj, List.getElem?_replicate]

theorem nodal_zeroField {N : ℕ} {m j : ℕ} (hm : m < N) (hj : j < k) : nodal (zeroField N k) m j = some 0 := by
  simp [zeroField, nodal, hm, hj, List.getElem?_replicate, Vec.at?, Vec.size]

theorem zeroField_val (N k m j : ℕ) : (nodal (zeroField N k) m j).getD 0 = 0 := by
  by_cases hm : m < N
  · by_cases hj : j < k
    · rw [nodal_zeroField hm hj]; rfl
    · simp [zeroField, nodal, hm, hj, Vec.at?, Vec.size]
  · simp [zeroField, nodal, hm]

theorem nodal_lt {m j : ℕ} (h : (nodal x m j).isSome) : m < x.length := by
  by_contra hc
  rw [nodal, List.getElem?_eq_none (not_lt.1 hc)] at h
  simp at h

theorem elem_fits {x : List (Vec ℝ)} {core : Matrix (Fin n) (Fin d) ℝ →
      Option (Matrix (Fin n × Fin k) (Fin n × Fin k) ℝ)} {e : List ℕ} {c : AsmCall ℝ} (hd : dl.length = k)
    (hdl : ∀ j ∈ dl, j < k) (h0 : 0 < d) (h : ElemCall core dl x e c) :
    c.Fits (freeTable x.length k) (zeroField x.length k) := by
  obtain ⟨X, A, hX, -, rfl⟩ := h
  have he := gather_length hX
  refine ⟨?_, ?_, ?_⟩
  · intro p hp
    obtain ⟨i, j, rfl⟩ := (mem_localDofs_inter he hd).1 hp
    have hi : (i : ℕ) < e.length := by rw [he]; exact i.2
    have h1 := gather_entry hX i ⟨0, h0⟩
    rw [List.getElem?_eq_getElem hi] at h1
    have h2 : e[(i : ℕ)] < x.length := nodal_lt (x := x) (j := 0) (by
      rw [show nodal x e[(i : ℕ)] 0 = _ from h1]; rfl)
    have h3 := hdl _ (List.getElem_mem (show (j : ℕ) < dl.length by rw [hd]; exact j.2))
    exact ⟨by simp only [dofNum_freeTable h2 h3]; rfl, by simp only [nodal_zeroField h2 h3]; rfl⟩
  · rw [interTable_length, he]
  · intro p hp q hq
    obtain ⟨i, j, rfl⟩ := (mem_localDofs_inter he hd).1 hp
    obtain ⟨i', j', rfl⟩ := (mem_localDofs_inter he hd).1 hq
    rw [flatM_entry A (i, j) (i', j')]
    rfl

theorem load_fits {x : List (Vec ℝ)} {core : Matrix (Fin n) (Fin d) ℝ →
      Option (Fin n × Fin k → ℝ)} {e : List ℕ} {c : AsmCall ℝ} (hd : dl.length = k)
    (hdl : ∀ j ∈ dl, j < k) (h0 : 0 < d) (h : LoadCall core dl x e c) :
    c.Fits (freeTable x.length k) (zeroField x.length k) := by
  obtain ⟨X, f, hX, -, rfl⟩ := h
  have he := gather_length hX
  refine ⟨?_, ?_, ?_⟩
  · intro p hp
    obtain ⟨i, j, rfl⟩ := (mem_localDofs_inter he hd).1 hp
    have hi : (i : ℕ) < e.length := by rw [he]; exact i.2
    have h1 := gather_entry hX i ⟨0, h0⟩
    rw [List.getElem?_eq_getElem hi] at h1
    have h2 : e[(i : ℕ)] < x.length := nodal_lt (x := x) (j := 0) (by
      rw [show nodal x e[(i : ℕ)] 0 = _ from h1]; rfl)
    have h3 := hdl _ (List.getElem_mem (show (j : ℕ) < dl.length by rw [hd]; exact j.2))
    exact ⟨by simp only [dofNum_freeTable h2 h3]; rfl, by simp only [nodal_zeroField h2 h3]; rfl⟩
  · rw [interTable_length, he]
  · intro p hp
    obtain ⟨i, j, rfl⟩ := (mem_localDofs_inter he hd).1 hp
    rw [flatV_entry f (i, j)]
    rfl

/-! ### Positive energy -/

theorem load_energy [CommRing K] {e : List ℕ} {c : AsmCall K} (h : LoadCall vcore dl x e c) (v w : ℕ → ℕ → K) :
    callEnergy c v w = 0 := by
  obtain ⟨X, f, -, -, rfl⟩ := h
  simp [callEnergy, AsmCall.mat]

theorem nodal_energy [CommRing K] (q : List ((ℕ × ℕ) × K)) (v w : ℕ → ℕ → K) :
    callEnergy (.nodal q) v w = 0 := by
  simp [callEnergy, AsmCall.mat]

theorem energy_pos {calls : List (AsmCall ℝ)} {v : ℕ → ℕ → ℝ} (h0 : ∀ c ∈ calls, 0 ≤ callEnergy c v v)
    (h : (∀ c ∈ calls, callEnergy c v v = 0) → False) : 0 < energy calls v v := by
  rw [energy_eq]
  have hn : 0 ≤ (calls.map fun c => callEnergy c v v).sum := List.sum_nonneg (by simpa using h0)
  refine lt_of_le_of_ne hn fun hz => h fun c hc => ?_
  have : ∀ (l : List (AsmCall ℝ)), (∀ c ∈ l, 0 ≤ callEnergy c v v) →
      (l.map fun c => callEnergy c v v).sum = 0 → ∀ c ∈ l, callEnergy c v v = 0 := by
    intro l
    induction l with
    | nil => simp
    | cons a l ih =>
      intro h1 h2 c hc
      have h3 : 0 ≤ (l.map fun c => callEnergy c v v).sum :=
        List.sum_nonneg (by simpa using fun c hc => h1 c (List.mem_cons_of_mem _ hc))
      have h4 := h1 a (by simp)
      rw [List.map_cons, List.sum_cons] at h2
      rcases List.mem_cons.1 hc with rfl | hc
      · linarith
      · exact ih (fun c hc => h1 c (by simp [hc])) (by linarith) c hc
  exact this calls h0 hz.symm c hc

theorem elem_sym {c : AsmCall K} [Zero K] {e : List ℕ} (hd : dl.length = k) (h : ElemCall core dl x e c)
    (hs : ∀ X A, core X = some A → Aᵀ = A) :
    ∀ p ∈ c.dofs, ∀ q ∈ c.dofs, c.mat p.2.2 q.2.2 = c.mat q.2.2 p.2.2 := by
  obtain ⟨X, A, hX, hA, rfl⟩ := h
  have he := gather_length hX
  intro p hp q hq
  obtain ⟨i, j, rfl⟩ := (mem_localDofs_inter he hd).1 hp
  obtain ⟨i', j', rfl⟩ := (mem_localDofs_inter he hd).1 hq
  simp only [AsmCall.mat]
  rw [flatM_entry A (i, j) (i', j'), flatM_entry A (i', j') (i, j)]
  have := congrFun (congrFun (hs X A hA) (i, j)) (i', j')
  simpa using this.symm

/-! ### Residual -/

/-- The work of the element vector of one call. -/
def callLoad [Ring K] (c : AsmCall K) (w : ℕ → ℕ → K) : K :=
  (c.dofs.map fun p => w p.1 p.2.1 * c.rhs p.2.2).sum

/-- The field that is one at one dof. -/
def unitField [Ring K] (n d : ℕ) (a b : ℕ) : K := if a = n ∧ b = d then 1 else 0

theorem list_sum_sub [AddCommGroup K] {α : Type} (l : List α) (f g : α → K) :
    (l.map fun a => f a - g a).sum = (l.map f).sum - (l.map g).sum := by
  induction l with
  | nil => simp
  | cons a l ih => simp only [List.map_cons, List.sum_cons, ih]; abel

theorem residual_eq [Ring K] (calls : List (AsmCall K)) (v : ℕ → ℕ → K) (n d : ℕ) :
    residual calls v n d = energy calls (unitField n d) v -
      (calls.map fun c => callLoad c (unitField n d)).sum := by
  rw [energy_eq, ← list_sum_sub]
  unfold residual
  refine congrArg List.sum (List.map_congr_left fun c _ => ?_)
  unfold callEnergy callLoad
  rw [← list_sum_sub]
  refine congrArg List.sum (List.map_congr_left fun p _ => ?_)
  unfold unitField
  split_ifs <;> simp

theorem load_work [CommRing K] {f : Fin n × Fin k → K} {e : List ℕ} (he : e.length = n) (hd : dl.length = k)
    (w : ℕ → ℕ → K) : callLoad (.load (flatV f) (interTable k n dl) e) w = localField dl e w ⬝ᵥ f := by
  have hl : ∀ (i : Fin n) (j : Fin k), w (e[(i : ℕ)]'(by rw [he]; exact i.2))
      (dl[(j : ℕ)]'(by rw [hd]; exact j.2)) = localField dl e w (i, j) := by
    intro i j
    have h1 : (i : ℕ) < e.length := by rw [he]; exact i.2
    have h2 : (j : ℕ) < dl.length := by rw [hd]; exact j.2
    simp [localField, h1, h2]
  unfold callLoad
  simp only [AsmCall.dofs]
  rw [localDofs_inter he hd, sum_flatMap_map, dotProduct, Fintype.sum_prod_type]
  refine Finset.sum_congr rfl fun i _ => Finset.sum_congr rfl fun j _ => ?_
  rw [hl]
  congr 1
  simp only [AsmCall.rhs]
  rw [flatV_entry f (i, j)]
  rfl

end Pansfem
