/-
The system of the cell problem.
-/
import Verif.Spec.ProgramCell
import Verif.Lemmas.ProgramVibration
import Verif.Lemmas.ProgramSolve
import Verif.Props.C40_General
import Verif.Props.C81_Homogenization

namespace Pansfem

open Matrix

variable {n : ℕ} {sf : SF ℝ 2 n} {ic : IC ℝ 2} {x : List (Vec ℝ)} {elements : List (List ℕ)} {pairs : List (ℕ × ℕ)}
  {E V t alpha : ℝ} {D : Matrix (Fin 3) (Fin 3) ℝ}

/-! ### Elements -/

/-- The element matrix. -/
noncomputable def cellKe (sf : SF ℝ 2 n) (ic : IC ℝ 2) (x : List (Vec ℝ)) (D : Matrix (Fin 3) (Fin 3) ℝ) (t : ℝ)
    (e : List ℕ) : Matrix (Fin n × Fin 2) (Fin n × Fin 2) ℝ :=
  ∑ g, (measure2 sf ic (nodeRows n x e) g * t) • ((planeB (gradAt sf (nodeRows n x e) (ic.points g)))ᵀ * D *
    planeB (gradAt sf (nodeRows n x e) (ic.points g)))

/-- The element loads of the macroscopic strains. -/
noncomputable def cellFes (sf : SF ℝ 2 n) (ic : IC ℝ 2) (x : List (Vec ℝ)) (D : Matrix (Fin 3) (Fin 3) ℝ) (t : ℝ)
    (e : List ℕ) : Matrix (Fin n × Fin 2) (Fin 3) ℝ :=
  ∑ g, (measure2 sf ic (nodeRows n x e) g * t) • ((planeB (gradAt sf (nodeRows n x e) (ic.points g)))ᵀ * D)

theorem measure2_det {X : Matrix (Fin n) (Fin 2) ℝ} (h : ∀ g, 0 < measure2 sf ic X g) : Regular sf ic X := by
  intro g h0
  have := h g
  rw [measure2, h0, zero_mul, zero_mul] at this
  exact lt_irrefl _ this

theorem cell_gather (h : CellInput sf ic x elements pairs E V t) {e : List ℕ} (he : e ∈ elements) :
    gather x e n 2 = some (nodeRows n x e) := by
  obtain ⟨h1, h2⟩ := h.coords e he
  obtain ⟨X, hX⟩ := Option.isSome_iff_exists.1 (gather_isSome (d := 2) h2 (x := x) fun m hm j => by
    fin_cases j
    · exact (h1 m hm).1
    · exact (h1 m hm).2)
  rw [hX, ← gather_rows hX]

theorem cellItem_eq (h : CellInput sf ic x elements pairs E V t) (hD : planeStrainD E V = some D) {e : List ℕ}
    (he : e ∈ elements) : cellItem sf ic x E V t e =
      some ⟨⟨flatM (cellKe sf ic x D t e), interTable 2 n [0, 1], e⟩, flatC (cellFes sf ic x D t e)⟩ := by
  have hX := cell_gather h he
  have hr := measure2_det (h.positive e he)
  have hK : planeStrainStiffness sf ic (nodeRows n x e) E V t = some (cellKe sf ic x D t e) :=
    planeStrainStiffness_eq_some.2 ⟨D, hD, (planeStiffness_eq_some sf ic _).2 ⟨hr, rfl⟩⟩
  have hF : homogenizeBodyForce sf ic (nodeRows n x e) E V t = some (cellFes sf ic x D t e) :=
    homogenizeBodyForce_eq_some.2 ⟨D, hD, hr, rfl⟩
  unfold cellItem
  rw [(elemM_eq_some (core := fun X => planeStrainStiffness sf ic X E V t)).2 ⟨rfl, _, _, hX, hK, rfl, rfl⟩]
  simp only [Option.bind_eq_bind, Option.bind_some, hX, hF, Option.pure_def]

theorem cellSpring_eq (alpha : ℝ) (e : List ℕ) : cellSpring alpha e =
    some ⟨dense (alpha • (1 : Matrix (Fin (2 * e.length)) (Fin (2 * e.length)) ℝ)), springTable e [0, 1], e⟩ := by
  unfold cellSpring
  rw [weakSpring_eq]
  rfl

theorem flatC_dense {k m : ℕ} (A : Matrix (Fin n × Fin k) (Fin m) ℝ) :
    flatC A = dense (A.submatrix finProdFinEquiv.symm id) := by
  unfold flatC dense
  congr 1
  rw [List.ofFn_mul]
  congr 1
  refine List.ofFn_inj.2 (funext fun i => List.ofFn_inj.2 (funext fun j => ?_))
  have e : (⟨(i : ℕ) * m + j, by
      calc (i : ℕ) * m + j < (i + 1) * m := by rw [add_mul, one_mul]; exact Nat.add_lt_add_left j.2 _
        _ ≤ _ := Nat.mul_le_mul_right _ i.2⟩ : Fin (n * k * m)) = finProdFinEquiv (i, j) := by
    apply Fin.ext
    simp [finProdFinEquiv_apply_val]
    ring
  rw [e]
  simp

theorem cell_column (hn : 0 < n) (A : Matrix (Fin n × Fin 2) (Fin 3) ℝ) (k : Fin 3) :
    ((flatC A).block 0 (k : ℕ) ((n * 2 : ℕ) : ℤ) 1).bind Vec.ofMat = some (flatV fun p => A p k) := by
  have h := C01_mat_block (A.submatrix (finProdFinEquiv (m := n) (n := 2)).symm id) 0 k (n * 2) 1 (by omega) one_pos
    (by omega) (by have := k.2; omega)
  rw [flatC_dense]
  refine Eq.trans (congrArg (fun o => Option.bind o Vec.ofMat) h) ?_
  rw [Option.bind_some, C01_vec_of_mat]
  unfold flatV densev
  congr 2
  refine List.ofFn_inj.2 (funext fun i => ?_)
  simp

/-! ### The numbers of the dofs -/

/-- The table of a cell: every dof has a number, the two nodes of a pair have the same, the two components never share
one, and every number is used. -/
structure CellTable (N : ℕ) (pairs : List (ℕ × ℕ)) (r : List (List ℤ) × ℕ) : Prop where
  lengths : r.1.map List.length = (freeTable N 2).map List.length
  num : ∀ m < N, ∀ j < 2, ∃ I : ℕ, dofNum r.1 m j = some (I : ℤ) ∧ I < r.2
  tied : ∀ p ∈ pairs, ∀ j < 2, dofNum r.1 p.2 j = dofNum r.1 p.1 j
  sep : ∀ m < N, ∀ m' < N, dofNum r.1 m 0 ≠ dofNum r.1 m' 1
  used : ∀ I < r.2, ∃ m < N, ∃ j < 2, dofNum r.1 m j = some (I : ℤ)
  inj : ∀ m < N, ∀ m' < N, ∀ j < 2, dofNum r.1 m j = dofNum r.1 m' j → m ∉ pairs.map Prod.snd →
    m' ∉ pairs.map Prod.snd → m = m'

theorem dofNum_freeTable_isSome {N m j : ℕ} : (dofNum (freeTable N 2) m j).isSome ↔ m < N ∧ j < 2 := by
  constructor
  · intro h
    by_contra hc
    rw [not_and_or] at hc
    rcases hc with hc | hc
    · simp [dofNum, freeTable, hc] at h
    · by_cases hm : m < N
      · simp [dofNum, freeTable, hc, hm] at h
      · simp [dofNum, freeTable, hm] at h
  · rintro ⟨h1, h2⟩
    rw [dofNum_freeTable h1 h2]; rfl

theorem cellTable_of {N : ℕ} {r : List (List ℤ) × ℕ} (hr : setPeriodic (freeTable N 2) pairs = some r)
    (hlt : ∀ p ∈ pairs, p.1 < N ∧ p.2 < N) (hm : ∀ p ∈ pairs, p.1 ∉ pairs.map Prod.snd)
    (hf : ∀ p ∈ pairs, ∀ q ∈ pairs, p.2 = q.2 → p.1 = q.1) : CellTable N pairs r := by
  obtain ⟨out, M⟩ := r
  obtain ⟨h1, h2, h3, h4⟩ := C22_numbers _ out pairs M hr
  have h5 := C22_ties_partial _ out pairs M hr hm hf
  have hs : ∀ m j, (dofNum out m j).isSome ↔ m < N ∧ j < 2 := fun m j => by
    rw [isSome_of_lengths h1, dofNum_freeTable_isSome]
  have hfree : ∀ m < N, ∀ j < 2, m ∉ pairs.map Prod.snd → ∃ I : ℕ, dofNum out m j = some (I : ℤ) ∧ I < M := by
    intro m hm j hj hns
    obtain ⟨g, hg⟩ := Option.isSome_iff_exists.1 ((hs m j).2 ⟨hm, hj⟩)
    have hne : g ≠ -1 := by
      intro e
      have := (h2 m j hns).1 (by rw [hg, e])
      rw [dofNum_freeTable hm hj] at this
      simp at this
    obtain ⟨a, b⟩ := (h4 g hne).1 ⟨m, j, hns, hg⟩
    exact ⟨g.toNat, by rw [hg]; congr 1; omega, by omega⟩
  have htied : ∀ p ∈ pairs, ∀ j < 2, dofNum out p.2 j = dofNum out p.1 j := fun p hp j hj =>
    h5 p hp j (dofNum_freeTable_isSome.2 ⟨(hlt p hp).2, hj⟩)
  -- the master of a node
  have hmaster : ∀ m < N, ∃ m' < N, m' ∉ pairs.map Prod.snd ∧ ∀ j < 2, dofNum out m j = dofNum out m' j := by
    intro m hm'
    by_cases hc : m ∈ pairs.map Prod.snd
    · obtain ⟨p, hp, rfl⟩ := List.mem_map.1 hc
      exact ⟨p.1, (hlt p hp).1, hm p hp, fun j hj => htied p hp j hj⟩
    · exact ⟨m, hm', hc, fun _ _ => rfl⟩
  refine ⟨h1, fun m hm' j hj => ?_, htied, fun m hm' m' hm'' he => ?_, fun I hI => ?_, fun m hm' m' hm'' j hj he a b => ?_⟩
  · obtain ⟨m', h6, h7, h8⟩ := hmaster m hm'
    rw [h8 j hj]
    exact hfree m' h6 j hj h7
  · obtain ⟨a, a1, a2, a3⟩ := hmaster m hm'
    obtain ⟨b, b1, b2, b3⟩ := hmaster m' hm''
    obtain ⟨I, hI, -⟩ := hfree a a1 0 (by norm_num) a2
    obtain ⟨J, hJ, -⟩ := hfree b b1 1 (by norm_num) b2
    rw [a3 0 (by norm_num), b3 1 (by norm_num), hI, hJ] at he
    have he : (I : ℤ) = J := Option.some.inj he
    rcases Nat.lt_trichotomy a b with hab | rfl | hab
    · have := h3 a 0 b 1 I J a2 b2 hI hJ (by omega) (by omega) (Or.inl hab)
      omega
    · have := h3 a 0 a 1 I J a2 a2 hI hJ (by omega) (by omega) (Or.inr ⟨rfl, by norm_num⟩)
      omega
    · have := h3 b 1 a 0 J I b2 a2 hJ hI (by omega) (by omega) (Or.inl hab)
      omega
  · obtain ⟨m, j, -, hmj⟩ := (h4 I (by omega)).2 ⟨by omega, by simpa using hI⟩
    obtain ⟨a, b⟩ := (hs m j).1 (by rw [hmj]; rfl)
    exact ⟨m, a, j, b, hmj⟩
  · obtain ⟨I, hI, -⟩ := hfree m hm' j hj a
    rcases Nat.lt_trichotomy m m' with hab | hab | hab
    · have := h3 m j m' j I I a b hI (by rw [← he, hI]) (by omega) (by omega) (Or.inl hab)
      omega
    · exact hab
    · have := h3 m' j m j I I b a (by rw [← he, hI]) hI (by omega) (by omega) (Or.inl hab)
      omega

theorem CellTable.dof {N : ℕ} {r : List (List ℤ) × ℕ} (h : CellTable N pairs r) {m j : ℕ} :
    (dofNum r.1 m j).isSome ↔ m < N ∧ j < 2 := by
  rw [isSome_of_lengths h.lengths, dofNum_freeTable_isSome]

theorem CellTable.numbered {N : ℕ} {r : List (List ℤ) × ℕ} (h : CellTable N pairs r) : Numbered r.1 r.2 := by
  intro m j g hg
  obtain ⟨a, b⟩ := h.dof.1 (show (dofNum r.1 m j).isSome by rw [hg]; rfl)
  obtain ⟨I, hI, hlt⟩ := h.num m a j b
  rw [hg] at hI
  obtain rfl := Option.some.inj hI
  exact Or.inr ⟨by omega, by omega⟩

/-- The field of a vector is the entry of the number. -/
theorem CellTable.field {N : ℕ} {r : List (List ℤ) × ℕ} (h : CellTable N pairs r) {m j : ℕ} {I : ℕ}
    (hI : dofNum r.1 m j = some (I : ℤ)) (hlt : I < r.2) (y : Fin r.2 → ℝ) : fieldOf r.1 y m j = y ⟨I, hlt⟩ := by
  unfold fieldOf numOf
  rw [hI]
  simp only [Option.getD_some, Int.toNat_natCast]
  rw [if_neg (by omega), dif_pos hlt]

theorem CellTable.periodic {N : ℕ} {r : List (List ℤ) × ℕ} (h : CellTable N pairs r) (y : Fin r.2 → ℝ) :
    Periodic pairs (fieldOf r.1 y) := by
  intro p hp j hj
  unfold fieldOf numOf
  rw [h.tied p hp j hj]

/-- Every periodic field comes from a vector. -/
theorem CellTable.lift {N : ℕ} {r : List (List ℤ) × ℕ} (h : CellTable N pairs r) {v : ℕ → ℕ → ℝ}
    (hv : Periodic pairs v) (hm : ∀ p ∈ pairs, p.1 ∉ pairs.map Prod.snd) (hlt : ∀ p ∈ pairs, p.1 < N ∧ p.2 < N) :
    ∃ y : Fin r.2 → ℝ, ∀ m < N, ∀ j < 2, fieldOf r.1 y m j = v m j := by
  have hmaster : ∀ m < N, ∃ m' < N, m' ∉ pairs.map Prod.snd ∧ ∀ j < 2, dofNum r.1 m j = dofNum r.1 m' j ∧
      v m j = v m' j := by
    intro m hm'
    by_cases hc : m ∈ pairs.map Prod.snd
    · obtain ⟨p, hp, rfl⟩ := List.mem_map.1 hc
      exact ⟨p.1, (hlt p hp).1, hm p hp, fun j hj => ⟨h.tied p hp j hj, hv p hp j hj⟩⟩
    · exact ⟨m, hm', hc, fun _ _ => ⟨rfl, rfl⟩⟩
  choose! mm jj using h.used
  obtain ⟨jj, hu⟩ : ∃ jj : ℕ → ℕ, ∀ I < r.2, mm I < N ∧ jj I < 2 ∧ dofNum r.1 (mm I) (jj I) = some (I : ℤ) := by
    have := fun I (hI : I < r.2) => (jj I hI)
    choose! a b using fun I (hI : I < r.2) => (jj I hI).2
    exact ⟨a, fun I hI => ⟨(jj I hI).1, (b I hI).1, (b I hI).2⟩⟩
  refine ⟨fun I => v (mm I) (jj I), fun m hm' j hj => ?_⟩
  obtain ⟨I, hI, hlt'⟩ := h.num m hm' j hj
  rw [h.field hI hlt']
  obtain ⟨a1, a2, a3⟩ := hu I hlt'
  show v (mm I) (jj I) = v m j
  have hjj : jj I = j := by
    by_contra hne
    rcases (show jj I = 0 ∧ j = 1 ∨ jj I = 1 ∧ j = 0 by omega) with ⟨b1, b2⟩ | ⟨b1, b2⟩
    · exact h.sep _ a1 m hm' (by rw [b1] at a3; rw [b2] at hI; rw [a3, hI])
    · exact h.sep m hm' _ a1 (by rw [b1] at a3; rw [b2] at hI; rw [a3, hI])
  rw [hjj] at a3 ⊢
  obtain ⟨c, c1, c2, c3⟩ := hmaster m hm'
  obtain ⟨d, d1, d2, d3⟩ := hmaster (mm I) a1
  have : d = c := h.inj d d1 c c1 j hj (by rw [← (d3 j hj).1, ← (c3 j hj).1, a3, hI]) d2 c2
  rw [(d3 j hj).2, (c3 j hj).2, this]

/-! ### Matrix and right-hand sides -/

/-- The data of the calls in the element loop. -/
noncomputable def cellElem (sf : SF ℝ 2 n) (ic : IC ℝ 2) (x : List (Vec ℝ)) (D : Matrix (Fin 3) (Fin 3) ℝ) (t : ℝ)
    (e : List ℕ) : ElemData ℝ := ⟨flatM (cellKe sf ic x D t e), interTable 2 n [0, 1], e⟩

/-- The data of the calls in the loop of the springs. -/
noncomputable def springElem (alpha : ℝ) (e : List ℕ) : ElemData ℝ :=
  ⟨dense (alpha • (1 : Matrix (Fin (2 * e.length)) (Fin (2 * e.length)) ℝ)), springTable e [0, 1], e⟩

section
variable {r : List (List ℤ) × ℕ}

theorem cell_node_lt (h : CellInput sf ic x elements pairs E V t) {e : List ℕ} (he : e ∈ elements) {m : ℕ}
    (hm : m ∈ e) : m < x.length := nodal_lt ((h.coords e he).1 m hm).1

theorem cellElem_fits (h : CellInput sf ic x elements pairs E V t) (hr : CellTable x.length pairs r) {e : List ℕ}
    (he : e ∈ elements) : (cellElem sf ic x D t e).call.Fits r.1 (zeroField x.length 2) := by
  have hl := (h.coords e he).2
  refine ⟨?_, ?_, ?_⟩
  · intro p hp
    obtain ⟨i, j, rfl⟩ := (mem_localDofs_inter (dl := [0, 1]) (k := 2) hl rfl).1 hp
    have h2 : e[(i : ℕ)]'(by rw [hl]; exact i.2) < x.length := cell_node_lt h he (List.getElem_mem _)
    have h3 : ([0, 1] : List ℕ)[(j : ℕ)] < 2 := by fin_cases j <;> simp
    exact ⟨hr.dof.2 ⟨h2, h3⟩, by rw [nodal_zeroField h2 h3]; rfl⟩
  · show e.length ≤ (interTable 2 n [0, 1]).length
    rw [interTable_length, hl]
  · intro p hp q hq
    obtain ⟨i, j, rfl⟩ := (mem_localDofs_inter (dl := [0, 1]) (k := 2) hl rfl).1 hp
    obtain ⟨i', j', rfl⟩ := (mem_localDofs_inter (dl := [0, 1]) (k := 2) hl rfl).1 hq
    show ((flatM _).at? _ _).isSome
    rw [flatM_entry _ (i, j) (i', j')]
    rfl

theorem mem_spring_dofs {e : List ℕ} {p : ℕ × ℕ × ℕ} (hp : p ∈ localDofs (springTable e [0, 1]) e) :
    p.1 ∈ e ∧ p.2.1 < 2 ∧ p.2.2 < 2 * e.length := by
  rw [spring_localDofs, List.mem_flatMap] at hp
  obtain ⟨q, hq, hp⟩ := hp
  obtain ⟨d, hd, rfl⟩ := List.mem_map.1 hp
  have h2 := List.snd_lt_of_mem_zipIdx hq
  refine ⟨List.fst_mem_of_mem_zipIdx hq, ?_, ?_⟩
  · simp only [List.mem_cons, List.not_mem_nil, or_false] at hd
    show d < 2
    omega
  · simp only [List.length_cons, List.length_nil]
    omega

theorem spring_entry {alpha : ℝ} {e : List ℕ} {a b : ℕ} (ha : a < 2 * e.length) (hb : b < 2 * e.length) :
    (springElem alpha e).Ke.at? a b = some (if a = b then alpha else 0) := by
  unfold springElem
  rw [C01_mat_read _ ⟨a, ha⟩ ⟨b, hb⟩]
  simp [Matrix.one_apply]

theorem springElem_fits (h : CellInput sf ic x elements pairs E V t) (hr : CellTable x.length pairs r) {e : List ℕ}
    (he : e ∈ elements) : (springElem alpha e).call.Fits r.1 (zeroField x.length 2) := by
  refine ⟨?_, ?_, ?_⟩
  · intro p hp
    obtain ⟨h1, h2, -⟩ := mem_spring_dofs hp
    have h3 := cell_node_lt h he h1
    exact ⟨hr.dof.2 ⟨h3, h2⟩, by rw [nodal_zeroField h3 h2]; rfl⟩
  · show e.length ≤ (springTable e [0, 1]).length
    simp [springTable]
  · intro p hp q hq
    show ((springElem alpha e).Ke.at? _ _).isSome
    rw [spring_entry (mem_spring_dofs hp).2.2 (mem_spring_dofs hq).2.2]
    rfl

theorem spring_energy (alpha : ℝ) (e : List ℕ) (v w : ℕ → ℕ → ℝ) :
    callEnergy (springElem alpha e).call v w = (e.map fun m => alpha * ((v m 0 + v m 1) * (w m 0 + w m 1))).sum := by
  have key : ∀ p ∈ localDofs (springTable e [0, 1]) e, ∀ q ∈ localDofs (springTable e [0, 1]) e,
      (springElem alpha e).call.mat p.2.2 q.2.2 = if p.2.2 = q.2.2 then alpha else 0 := by
    intro p hp q hq
    show ((springElem alpha e).Ke.at? _ _).getD 0 = _
    rw [spring_entry (mem_spring_dofs hp).2.2 (mem_spring_dofs hq).2.2]
    rfl
  have e1 : callEnergy (springElem alpha e).call v w = ((localDofs (springTable e [0, 1]) e).map fun p => v p.1 p.2.1 *
      ((localDofs (springTable e [0, 1]) e).map fun q => (if p.2.2 = q.2.2 then alpha else 0) * w q.1 q.2.1).sum).sum := by
    unfold callEnergy
    refine congrArg List.sum (List.map_congr_left fun p hp => ?_)
    refine congrArg (fun s => v p.1 p.2.1 * s) (congrArg List.sum (List.map_congr_left fun q hq => ?_))
    rw [key p hp q hq]
  rw [e1, spring_localDofs, sum_flatMap]
  conv_rhs => rw [← List.zipIdx_map_fst 0 e, List.map_map]
  refine sum_congr_mem fun p hp => ?_
  have inner : ((e.zipIdx.flatMap fun q => ([0, 1] : List ℕ).map fun d => (q.1, d, ([0, 1] : List ℕ).length * q.2)).map
      fun q => (if ([0, 1] : List ℕ).length * p.2 = q.2.2 then alpha else 0) * w q.1 q.2.1).sum =
      alpha * (w p.1 0 + w p.1 1) := by
    rw [sum_flatMap]
    refine Eq.trans (sum_congr_mem (g := fun q : ℕ × ℕ => if p.2 = q.2 then alpha * (w q.1 0 + w q.1 1) else 0) fun q _ => ?_) ?_
    · by_cases hq : p.2 = q.2
      · simp [hq, mul_add]
      · simp [hq]
    · exact sum_zipIdx_single (fun q : ℕ × ℕ => alpha * (w q.1 0 + w q.1 1)) e 0 hp
  rw [List.map_map]
  simp only [Function.comp_def]
  rw [List.map_cons, List.map_cons, List.map_nil, List.sum_cons, List.sum_cons, List.sum_nil, inner]
  ring

theorem cell_energy (h : CellInput sf ic x elements pairs E V t) {e : List ℕ} (he : e ∈ elements) (v w : ℕ → ℕ → ℝ) :
    callEnergy (cellElem sf ic x D t e).call v w = ∑ g, measure2 sf ic (nodeRows n x e) g * t *
      (cellStrain sf ic x v e g ⬝ᵥ (D *ᵥ cellStrain sf ic x w e g)) := by
  have hl := (h.coords e he).2
  refine (matrix_energy (dl := [0, 1]) (k := 2) (cellKe sf ic x D t e) hl rfl v w).trans ?_
  have hloc : ∀ v : ℕ → ℕ → ℝ, (localField [0, 1] e v : Fin n × Fin 2 → ℝ) = fun p => v (e[(p.1 : ℕ)]?.getD 0) p.2 := by
    intro v
    funext ⟨i, j⟩
    unfold localField
    fin_cases j <;> simp
  rw [hloc, hloc]
  unfold cellKe
  rw [dot_sum_congr_transform]
  refine Finset.sum_congr rfl fun g _ => ?_
  rw [planeB_mulVec, planeB_mulVec]
  rfl

theorem cell_load (h : CellInput sf ic x elements pairs E V t) {e : List ℕ} (he : e ∈ elements) (w : ℕ → ℕ → ℝ)
    (k : Fin 3) :
    callLoad (.load (flatV fun p => cellFes sf ic x D t e p k) (interTable 2 n [0, 1]) e) w =
      ∑ g, measure2 sf ic (nodeRows n x e) g * t * (cellStrain sf ic x w e g ⬝ᵥ (D *ᵥ Pi.single k 1)) := by
  have hl := (h.coords e he).2
  refine (load_work (dl := [0, 1]) (k := 2) hl rfl w).trans ?_
  have hloc : ∀ v : ℕ → ℕ → ℝ, (localField [0, 1] e v : Fin n × Fin 2 → ℝ) = fun p => v (e[(p.1 : ℕ)]?.getD 0) p.2 := by
    intro v
    funext ⟨i, j⟩
    unfold localField
    fin_cases j <;> simp
  rw [hloc]
  have hcol : (fun p => cellFes sf ic x D t e p k) = cellFes sf ic x D t e *ᵥ Pi.single k 1 := by
    rw [Matrix.mulVec_single_one]; rfl
  rw [hcol]
  unfold cellFes
  rw [mulVec_sum, dotProduct_sum]
  refine Finset.sum_congr rfl fun g _ => ?_
  rw [Matrix.smul_mulVec, dotProduct_smul, smul_eq_mul, ← Matrix.mulVec_mulVec, Matrix.dotProduct_mulVec,
    Matrix.vecMul_transpose, planeB_mulVec]
  rfl

/-- What one pass adds to a right-hand side. -/
theorem cellForce_eff (h : CellInput sf ic x elements pairs E V t) (hr : CellTable x.length pairs r) {e : List ℕ}
    (he : e ∈ elements) (k : Fin 3) :
    HasEff (fun F : List ℝ => F.length = r.2) obsF (fun F => do
        let F ← asmFu (zeroField x.length 2) (cellElem sf ic x D t e).Ke r.1 (interTable 2 n [0, 1]) e F
        let Fe ← Vec.ofMat (← (flatC (cellFes sf ic x D t e)).block 0 (k : ℕ) (cellElem sf ic x D t e).Ke.row 1)
        asmFe Fe r.1 (interTable 2 n [0, 1]) e F)
      (fun I => ((localDofs (interTable 2 n [0, 1]) e).map fun p => if numOf r.1 p.1 p.2.1 = I then
        ((flatV fun p => cellFes sf ic x D t e p k).at? p.2.2).getD 0 else 0).sum) := by
  have hl := (h.coords e he).2
  have hfit := cellElem_fits (D := D) h hr he
  have hlen : e.length ≤ (interTable 2 n [0, 1]).length := by rw [interTable_length, hl]
  have hfe : ∀ p ∈ localDofs (interTable 2 n [0, 1]) e, (flatV fun p => cellFes sf ic x D t e p k).at? p.2.2 =
      some (((flatV fun p => cellFes sf ic x D t e p k).at? p.2.2).getD 0) := by
    intro p hp
    obtain ⟨i, j, rfl⟩ := (mem_localDofs_inter (dl := [0, 1]) (k := 2) hl rfl).1 hp
    simp only [flatV_entry _ (i, j), Option.getD_some]
  intro F hF
  obtain ⟨F1, a1, a2, a3⟩ := C23_Fu r.1 (zeroField x.length 2) (cellElem sf ic x D t e).Ke r.2 (numOf r.1)
    (valOf (zeroField x.length 2)) (cellElem sf ic x D t e).call.mat (interTable 2 n [0, 1]) e hlen
    (hfit.reads hr.numbered _ fun p hp q hq => getD_of_isSome (hfit.2.2 p hp q hq)) F hF
  obtain ⟨F2, b1, b2, b3⟩ := C23_Fe r.1 (flatV fun p => cellFes sf ic x D t e p k) r.2 (numOf r.1)
    (fun a => ((flatV fun p => cellFes sf ic x D t e p k).at? a).getD 0) (interTable 2 n [0, 1]) e hlen hfit.num
    (hfit.range hr.numbered) hfe F1 a2
  refine ⟨F2, ?_, b2, ?_⟩
  · have hcol := cell_column h.size (cellFes sf ic x D t e) k
    have hrow : (((cellElem sf ic x D t e).Ke.row : ℕ) : ℤ) = ((n * 2 : ℕ) : ℤ) := rfl
    rw [hrow]
    simp only [Option.bind_eq_bind, a1, Option.bind_some]
    rw [← Option.bind_assoc, hcol, Option.bind_some, b1]
  · funext I
    have hz : contribF (numOf r.1) (valOf (zeroField x.length 2)) (cellElem sf ic x D t e).call.mat (fun _ => 0)
        (localDofs (interTable 2 n [0, 1]) e) I = 0 := by
      unfold contribF
      refine sum_zero' _ _ fun p _ => ?_
      have : ∀ m j, valOf (zeroField x.length 2) m j = 0 := fun m j => zeroField_val _ _ _ _
      simp [this]
    rw [Pi.add_apply]
    unfold obsF
    rw [b3 I, a3 I, hz]
    by_cases hI : I < F.length
    · rw [List.getElem?_eq_getElem hI]; simp
    · rw [List.getElem?_eq_none (not_lt.1 hI)]
      simp only [Option.map_none, Option.getD_none, zero_add]
      symm
      refine sum_zero' _ _ fun p hp => ?_
      rw [if_neg]
      intro e1
      rcases hfit.range hr.numbered p hp with h1 | ⟨J, h1, h2⟩
      · omega
      · omega

theorem cellForce_spec (h : CellInput sf ic x elements pairs E V t) (hr : CellTable x.length pairs r) (k : Fin 3) :
    ∃ F, cellForce r.1 (zeroField x.length 2) k (elements.map fun e =>
        ⟨cellElem sf ic x D t e, flatC (cellFes sf ic x D t e)⟩) (List.replicate r.2 0) = some F ∧ F.length = r.2 ∧
      ∀ y : Fin r.2 → ℝ, y ⬝ᵥ (fun i => F[(i : ℕ)]?.getD 0) =
        cellForm sf ic x elements D t (cellStrain sf ic x (fieldOf r.1 y)) fun _ _ => Pi.single k 1 := by
  obtain ⟨F, h1, h2, h3⟩ := hasEff_foldlM elements _ _ (fun e he => cellForce_eff (D := D) h hr he k)
    (List.replicate r.2 0) (List.length_replicate)
  refine ⟨F, ?_, h2, fun y => ?_⟩
  · unfold cellForce
    rw [List.foldlM_map]
    exact h1
  · have hF : ∀ I, obsF F I = (elements.map fun e => ((localDofs (interTable 2 n [0, 1]) e).map fun p =>
        if numOf r.1 p.1 p.2.1 = I then ((flatV fun p => cellFes sf ic x D t e p k).at? p.2.2).getD 0 else 0).sum).sum := by
      intro I
      rw [h3, Pi.add_apply, sum_apply1]
      have : obsF (List.replicate r.2 (0 : ℝ)) I = 0 := by
        unfold obsF
        by_cases hI : I < r.2 <;> simp [hI]
      rw [this, zero_add]
    have e1 : y ⬝ᵥ (fun i => F[(i : ℕ)]?.getD 0) = ∑ I ∈ Finset.range r.2, obsF (List.ofFn y) I * obsF F I := by
      rw [Finset.sum_range]
      simp only [obsF_ofFn]
      rfl
    rw [e1]
    simp only [hF, list_sum_mul_left elements]
    rw [range_sum_list]
    unfold cellForm
    refine congrArg List.sum (List.map_congr_left fun e he => ?_)
    have hfit := cellElem_fits (D := D) h hr he
    have hrange : ∀ p ∈ localDofs (interTable 2 n [0, 1]) e, numOf r.1 p.1 p.2.1 = -1 ∨
        ∃ I : ℕ, numOf r.1 p.1 p.2.1 = I ∧ I < r.2 := hfit.range hr.numbered
    rw [sum_pick (localDofs (interTable 2 n [0, 1]) e)
      (fun p : ℕ × ℕ × ℕ => ((flatV fun p => cellFes sf ic x D t e p k).at? p.2.2).getD 0)
      (fun p : ℕ × ℕ × ℕ => numOf r.1 p.1 p.2.1) _ _ hrange, ← cell_load h he (fieldOf r.1 y) k]
    unfold callLoad
    refine congrArg List.sum (List.map_congr_left fun p hp => ?_)
    rw [fieldOf_spread]
    by_cases hm : numOf r.1 p.1 p.2.1 = -1
    · rw [if_pos hm, spread, if_pos hm, zero_mul]
    · rw [if_neg hm, spread, if_neg hm]
      rfl

theorem cellKe_symm (hD : Dᵀ = D) (e : List ℕ) : (cellKe sf ic x D t e)ᵀ = cellKe sf ic x D t e :=
  isSymm_smul_sum fun g => by
    show _ᵀ = _
    rw [Matrix.transpose_mul, Matrix.transpose_mul, Matrix.transpose_transpose, hD, Matrix.mul_assoc]

theorem cellElem_sym (h : CellInput sf ic x elements pairs E V t) (hD : Dᵀ = D) {e : List ℕ} (he : e ∈ elements) :
    ∀ p ∈ (cellElem sf ic x D t e).call.dofs, ∀ q ∈ (cellElem sf ic x D t e).call.dofs,
      (cellElem sf ic x D t e).call.mat p.2.2 q.2.2 = (cellElem sf ic x D t e).call.mat q.2.2 p.2.2 := by
  have hl := (h.coords e he).2
  intro p hp q hq
  obtain ⟨i, j, rfl⟩ := (mem_localDofs_inter (dl := [0, 1]) (k := 2) hl rfl).1 hp
  obtain ⟨i', j', rfl⟩ := (mem_localDofs_inter (dl := [0, 1]) (k := 2) hl rfl).1 hq
  show ((flatM _).at? _ _).getD 0 = ((flatM _).at? _ _).getD 0
  rw [flatM_entry _ (i, j) (i', j'), flatM_entry _ (i', j') (i, j)]
  exact congrFun (congrFun (cellKe_symm hD e).symm _) _

theorem springElem_sym (alpha : ℝ) (e : List ℕ) :
    ∀ p ∈ (springElem alpha e).call.dofs, ∀ q ∈ (springElem alpha e).call.dofs,
      (springElem alpha e).call.mat p.2.2 q.2.2 = (springElem alpha e).call.mat q.2.2 p.2.2 := by
  intro p hp q hq
  show ((springElem alpha e).Ke.at? _ _).getD 0 = ((springElem alpha e).Ke.at? _ _).getD 0
  have hp := (mem_spring_dofs (e := e) hp).2.2
  have hq := (mem_spring_dofs (e := e) hq).2.2
  rw [spring_entry hp hq, spring_entry hq hp]
  simp only [eq_comm]

/-- What the system is. -/
structure CellSystem (sf : SF ℝ 2 n) (ic : IC ℝ 2) (x : List (Vec ℝ)) (elements : List (List ℕ)) (pairs : List (ℕ × ℕ))
    (D : Matrix (Fin 3) (Fin 3) ℝ) (t alpha : ℝ) (r : List (List ℤ) × ℕ) (m : CSR ℝ) (F : Fin 3 → List ℝ)
    (M : Matrix (Fin r.2) (Fin r.2) ℝ) : Prop where
  table : CellTable x.length pairs r
  csr : IsCSR r.2 m M
  symm : ∀ i j, M i j = M j i
  form : ∀ y z : Fin r.2 → ℝ, y ⬝ᵥ M.mulVec z =
    cellForm sf ic x elements D t (cellStrain sf ic x (fieldOf r.1 y)) (cellStrain sf ic x (fieldOf r.1 z)) +
    springWork alpha elements (fieldOf r.1 y) (fieldOf r.1 z)
  length : ∀ k, (F k).length = r.2
  load : ∀ k, ∀ y : Fin r.2 → ℝ, y ⬝ᵥ (fun i => (F k)[(i : ℕ)]?.getD 0) =
    cellForm sf ic x elements D t (cellStrain sf ic x (fieldOf r.1 y)) fun _ _ => Pi.single k 1

theorem cellSystem_spec (h : CellInput sf ic x elements pairs E V t) (hD : planeStrainD E V = some D) (alpha : ℝ) :
    ∃ (r : List (List ℤ) × ℕ) (m : CSR ℝ) (F : Fin 3 → List ℝ) (M : Matrix (Fin r.2) (Fin r.2) ℝ),
      cellSystem sf ic x elements pairs E V t alpha = some (r, m, F) ∧
      CellSystem sf ic x elements pairs D t alpha r m F M := by
  obtain ⟨out, N, hr⟩ := C22_defined (freeTable x.length 2) pairs
    (fun p hp => by simpa [freeTable] using (h.pairs_lt p hp).2)
    (fun p hp d hd => dofNum_freeTable_isSome.2 ⟨(h.pairs_lt p hp).1, (dofNum_freeTable_isSome.1 hd).2⟩)
  have ht : CellTable x.length pairs (out, N) := cellTable_of hr h.pairs_lt h.master h.unique
  have hsym : Dᵀ = D := isSymm_planeStrainD hD
  have hitems : elements.mapM (cellItem sf ic x E V t) = some (elements.map fun e =>
      ⟨cellElem sf ic x D t e, flatC (cellFes sf ic x D t e)⟩) := mapM_some fun e he => cellItem_eq h hD he
  have hsprings : elements.mapM (cellSpring alpha) = some (elements.map (springElem alpha)) :=
    mapM_some fun e _ => cellSpring_eq alpha e
  have hall : ∀ it ∈ elements.map (cellElem sf ic x D t) ++ elements.map (springElem alpha),
      it.call.Fits out (zeroField x.length 2) := by
    intro it hit
    rcases List.mem_append.1 hit with hit | hit
    · obtain ⟨e, he, rfl⟩ := List.mem_map.1 hit
      exact cellElem_fits h ht he
    · obtain ⟨e, he, rfl⟩ := List.mem_map.1 hit
      exact springElem_fits h ht he
  have hsc : SymmetricCalls ((elements.map (cellElem sf ic x D t) ++ elements.map (springElem alpha)).map
      ElemData.call) := by
    intro c hc
    obtain ⟨it, hit, rfl⟩ := List.mem_map.1 hc
    rcases List.mem_append.1 hit with hit | hit
    · obtain ⟨e, he, rfl⟩ := List.mem_map.1 hit
      exact cellElem_sym h hsym he
    · obtain ⟨e, he, rfl⟩ := List.mem_map.1 hit
      exact springElem_sym alpha e
  obtain ⟨B, m, s', M, hB, hm, hcsr, hform, hMs⟩ := asmMatrix_form ht.numbered hall hsc
  unfold asmMatrix at hB
  rw [List.foldlM_append] at hB
  obtain ⟨A, hA, hB⟩ := Option.bind_eq_some_iff.1 hB
  choose F hF hlen hload using fun k => cellForce_spec (D := D) h ht k
  refine ⟨(out, N), m, F, M, ?_, ht, hcsr, hMs, fun y z => ?_, hlen, hload⟩
  · unfold cellSystem
    have hA' : asmMatrix out (elements.map (cellElem sf ic x D t)) (LIL.new N N) = some A := hA
    have hB' : asmMatrix out (elements.map (springElem alpha)) A = some B := hB
    have hFs : allSome (fun k : Fin 3 => cellForce out (zeroField x.length 2) k (elements.map fun e =>
        ⟨cellElem sf ic x D t e, flatC (cellFes sf ic x D t e)⟩) (List.replicate N 0)) = some F := allSome_eq_some.2 hF
    have hel : List.map CellItem.toElem (elements.map fun e =>
        (⟨cellElem sf ic x D t e, flatC (cellFes sf ic x D t e)⟩ : CellItem)) = elements.map (cellElem sf ic x D t) := by
      rw [List.map_map]; rfl
    simp only [hr, Option.bind_eq_bind, Option.bind_some, hitems, hel, hA', hFs, hsprings, hB', hm]
    rfl
  · rw [hform y z]
    unfold energy
    rw [List.map_append, List.map_append, List.sum_append, List.map_map, List.map_map, List.map_map, List.map_map]
    unfold cellForm springWork
    congr 1
    · exact congrArg List.sum (List.map_congr_left fun e he => cell_energy h he _ _)
    · exact congrArg List.sum (List.map_congr_left fun e _ => spring_energy alpha e _ _)

end

end Pansfem
