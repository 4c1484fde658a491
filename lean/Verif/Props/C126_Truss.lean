/-
C126: the truss programs, from the ground structure to the last pass and to the sections for full stress.
-/
import Verif.Lemmas.ProgramTruss
import Verif.Lemmas.GroundStructure
import Verif.Props.C54_Fixedlist

noncomputable section

open Finset

namespace Pansfem

/-! ### The problem -/

/-- **C126**: the energy of a bar.  Twice the strain energy that the element matrix gives to any displacement is
`EA/l` times the square of the elongation, so it vanishes just if the bar keeps its length. -/
theorem C126_bar {x : List (Vec ℝ)} {elements : List (List ℕ)} {E A : ℝ} (hE : 0 < E) (hA : 0 < A)
    (hB : Bars x elements) {e : List ℕ} (he : e ∈ elements) (v : ℕ → ℕ → ℝ) :
    ∃ Ke, elemM 2 (trussCore E A) e [0, 1] x = some (Ke, interTable 2 2 [0, 1]) ∧
      callEnergy (.matrix Ke (interTable 2 2 [0, 1]) e) v v = E * A / barLen x e * elongation x e v ^ 2 ∧
      (callEnergy (.matrix Ke (interTable 2 2 [0, 1]) e) v v = 0 ↔ elongation x e v = 0) := by
  have hL := linear_truss hE.le hB
  obtain ⟨X, hX, hA', -, -⟩ := hL.mat he
  have h1 : callEnergy (.matrix (flatM (A • baseMat (trussCore E) x e)) (interTable 2 2 [0, 1]) e) v v =
      E * A / barLen x e * elongation x e v ^ 2 := by
    refine (baseItem_energy hL he A v v).trans ?_
    rw [bar_form hE.le hB he]
    ring
  refine ⟨_, elemM_eq_some.2 ⟨rfl, X, _, hX, hL.lin X _ _ hA', rfl, rfl⟩, h1, ?_⟩
  rw [h1, mul_eq_zero, sq_eq_zero_iff, or_iff_right (div_pos (mul_pos hE hA) (barLen_pos hB he)).ne']

/-- **C126**: stiffness.  A ground structure whose bars may be longer than the diagonal of a cell is stiff as soon as two
of its nodes are held in both directions. -/
theorem C126_stiff {m : GrandStructure ℝ} {elements : List (List ℕ)} (he : m.elements = some elements) (hx : 0 < m.nx)
    (hy : 0 < m.ny) (h1 : 0 < m.x) (h2 : 0 < m.y) (hd : (m.x / m.nx) ^ 2 + (m.y / m.ny) ^ 2 < m.lmax ^ 2)
    {nodes : List (ℝ × ℝ)} (hn : m.nodes = some nodes) {ufixed : List ((ℕ × ℕ) × ℝ)} {a b : ℕ} (hab : a ≠ b)
    (ha : a < nodes.length) (hb : b < nodes.length)
    (hf : ∀ d < 2, (a, d) ∈ ufixed.map Prod.fst ∧ (b, d) ∈ ufixed.map Prod.fst) :
    Stiff (nodeVectors nodes) elements ufixed := by
  obtain rfl := Option.some.inj (hn.symm.trans (groundNodes_eq m hx hy))
  exact ground_stiff he hx hy h1 h2 hd hab ha hb hf

/-- **C126**: mesh, supports and loads.  The programs get the nodes of the ground structure and a bar between any two of
them that are nearer than the limit; exactly the dofs of the nodes chosen by the first predicate are fixed, at zero;
exactly the nodes chosen by the second carry the load, in the second direction.  If two nodes are held and one that is not
is loaded, the truss can be analysed. -/
theorem C126_problem (m : GrandStructure ℝ) (hx : 0 < m.nx) (hy : 0 < m.ny) (h1 : 0 < m.x) (h2 : 0 < m.y)
    (held loaded : ℝ × ℝ → Bool) (v : ℝ) :
    ∃ x elements ufixed qfixed, trussProblem m held loaded v = some (x, elements, ufixed, qfixed) ∧
      x.length = (m.nx + 1) * (m.ny + 1) ∧ (∀ p ∈ x, p.size = 2) ∧ Bars x elements ∧
      (∀ i ≤ m.nx, ∀ j ≤ m.ny, coord x ((m.ny + 1) * i + j) 0 = m.x / m.nx * i ∧
        coord x ((m.ny + 1) * i + j) 1 = m.y / m.ny * j) ∧
      elements.Nodup ∧
      (∀ a < x.length, ∀ b < a, [b, a] ∉ elements ∧ ([a, b] ∈ elements ↔ barSpan x [a, b] 0 ^ 2 + barSpan x [a, b] 1 ^ 2 < m.lmax ^ 2)) ∧
      (∀ r ∈ ufixed, r.2 = 0) ∧
      (∀ n d, (n, d) ∈ ufixed.map Prod.fst ↔ n < x.length ∧ d < 2 ∧ held (coord x n 0, coord x n 1) = true) ∧
      (∀ n d, nodalLoad qfixed n d =
        if n < x.length ∧ d = 1 ∧ loaded (coord x n 0, coord x n 1) = true then v else 0) ∧
      ((m.nx + 1) * (m.ny + 1) ≤ 50000 → (m.x / m.nx) ^ 2 + (m.y / m.ny) ^ 2 < m.lmax ^ 2 → v ≠ 0 →
        (∃ a < x.length, ∃ b < x.length, a ≠ b ∧ held (coord x a 0, coord x a 1) = true ∧
          held (coord x b 0, coord x b 1) = true) →
        (∃ c < x.length, loaded (coord x c 0, coord x c 1) = true ∧ held (coord x c 0, coord x c 1) = false) →
        TrussOk x elements ufixed qfixed) := by
  obtain ⟨n1, us, e1, e2, s1⟩ := C54_ground m hx hy [0, 1] (by simp) (by decide) held
  obtain ⟨n2, qs, e3, e4, s2⟩ := C54_ground m hx hy [1] (by simp) (by decide) loaded
  obtain ⟨n3, elements, e5, e6, hnd, -, hmem⟩ := C56_bars m hx hy
  have hg := groundNodes_eq m hx hy
  obtain rfl := Option.some.inj (e1.symm.trans hg)
  obtain rfl := Option.some.inj (e3.symm.trans hg)
  obtain rfl := Option.some.inj (e5.symm.trans hg)
  have hlen : (asVectors (groundNodes m)).length = (m.nx + 1) * (m.ny + 1) := by
    rw [asVectors, List.length_map, groundNodes, length_grid]
  obtain ⟨z1, -, keys, k2, k3⟩ := chosen_supports (nodes := groundNodes m) s1 s2 v
  have hB := ground_bars e6 hx hy h1 h2
  refine ⟨asVectors (groundNodes m), elements, fixedDofs us, setLoads v (fixedDofs qs), ?_, hlen, ?_, hB,
    fun i hi j hj => ground_coord m hi hj, hnd, ?_, z1, keys, k2, ?_⟩
  · unfold trussProblem
    simp only [hg, e6, e2, e4, Option.bind_eq_bind, Option.bind_some, Option.pure_def]
    rfl
  · intro p hp
    obtain ⟨q, -, rfl⟩ := List.mem_map.1 hp
    rfl
  · intro a ha b hb
    have ha' : a < (groundNodes m).length := by simpa [asVectors] using ha
    have hb' : b < (groundNodes m).length := hb.trans ha'
    obtain ⟨h3, h4⟩ := hmem a b _ _ (List.getElem?_eq_getElem ha') (List.getElem?_eq_getElem hb') hb
    refine ⟨h3, h4.trans ?_⟩
    obtain ⟨c1, c2⟩ := coord_asVectors (List.getElem?_eq_getElem ha')
    obtain ⟨c3, c4⟩ := coord_asVectors (List.getElem?_eq_getElem hb')
    simp only [barSpan, List.getElem?_cons_zero, List.getElem?_cons_succ, Option.getD_some, c1, c2, c3, c4, dist2]
    rw [sub_sq_comm, sub_sq_comm (groundNodes m)[b].2]
  · rintro hN hd hv ⟨a, ha, b, hb, hab, l1, l2⟩ ⟨c, hc, l3, l4⟩
    have hla : a < (groundNodes m).length := by simpa [asVectors] using ha
    have hlb : b < (groundNodes m).length := by simpa [asVectors] using hb
    refine ⟨hB, ground_stiff e6 hx hy h1 h2 hd hab hla hlb fun d hd2 => ⟨(keys a d).2 ⟨ha, hd2, l1⟩,
      (keys b d).2 ⟨hb, hd2, l2⟩⟩, fun r hr => ?_, z1, k3, ⟨c, hc, 1, by norm_num, ?_, ?_⟩, by rw [hlen]; exact hN⟩
    · obtain ⟨c1, c2, -⟩ := (keys r.1.1 r.1.2).1 (List.mem_map_of_mem hr)
      exact ⟨c1, c2⟩
    · intro hf
      have := ((keys _ _).1 hf).2.2
      rw [l4] at this
      exact absurd this (by decide)
    · rw [k2, if_pos ⟨hc, rfl, l3⟩]
      exact hv

/-- **C126**: everything before the loop of the size optimisation succeeds if the truss can be analysed, and the lengths
are those of the bars. -/
theorem C126_program (m : GrandStructure ℝ) (held loaded : ℝ × ℝ → Bool) (v : ℝ) {x : List (Vec ℝ)}
    {elements : List (List ℕ)} {ufixed qfixed : List ((ℕ × ℕ) × ℝ)}
    (he : trussProblem m held loaded v = some (x, elements, ufixed, qfixed)) (h : TrussOk x elements ufixed qfixed)
    (hp : ∀ p ∈ x, p.size = 2) {E A0 A1 limit scale : ℝ} (hE : 0 < E) (hA : 0 < A0 ∧ A0 ≤ A1) (hl : 0 < limit)
    (hs : 0 < scale) :
    ∃ P, trussProgram m held loaded v E A0 A1 limit scale = some P ∧ P.Ok ∧ P.x = x ∧ P.elements = elements ∧
      P.ufixed = ufixed ∧ P.qfixed = qfixed ∧ P.E = E ∧ P.A0 = A0 ∧ P.A1 = A1 ∧ P.weightlimit = limit ∧
      P.scale0 = scale := by
  have hm : elements.mapM (barLength x) = some (elements.map (barLen x)) :=
    mapM_some fun e he => barLength_eq hp h.bars he
  refine ⟨⟨x, elements, ufixed, qfixed, elements.map (barLen x), (elements.map (barLen x)).foldl (· + ·) 0, E, A0, A1,
    limit, scale⟩, ?_, ⟨h, rfl, ?_, hE, hA, hl, hs⟩, rfl, rfl, rfl, rfl, rfl, rfl, rfl, rfl, rfl⟩
  · unfold trussProgram
    simp only [he, hm, Option.bind_eq_bind, Option.bind_some, Option.pure_def]
  · exact List.sum_eq_foldl.symm

/-! ### Size optimisation -/

/-- **C126**: every design with variables between 0 and 1 can be evaluated, and the evaluation is sound: the solver
converges, the supports do not move, the axial forces balance the loads, the weight is that of the design, the objective
is the work of the axial forces, the sensitivities are the derivatives of both. -/
theorem C126_evaluation {P : TrussProgram} (h : P.Ok) {s : List ℝ} (hs : IsDesign P.elements.length s) :
    ∃ e, evaluateTruss P s = some e ∧ e.Sound P s := evaluateTruss_sound h hs.1 hs.2

/-- **C126**: the callback of OC is defined for every list of the right length, and is the weight of that list. -/
theorem C126_callback {P : TrussProgram} (h : P.Ok) {s : List ℝ} (hs : s.length = P.elements.length) :
    trussWeight P s = some ((∑ i : Fin P.elements.length, s[(i : ℕ)]?.getD 0 * P.len i) /
      (P.weightlimit * ∑ i, P.len i) - 1) := trussWeight_eq h hs

/-- **C126**: every run of the size optimisation is sound, with variables in `(0, 1]` that change by at most 15 per cent
in a pass, and its designs are those that OC makes of compliance and weight. -/
theorem C126_run {P : TrussProgram} (h : P.Ok) (fuel : ℕ) :
    SoundTrussRun P 1.0e-5 (fun a => 0 < a ∧ a ≤ 1) (fun a b => 0.85 * a ≤ b ∧ b ≤ 1.15 * a) 50 (runTruss P fuel) ∧
    TrussUpdatedBy (fun o q => ocUpdate o fuel q.s q.value.f q.value.dfds q.value.g q.value.dgds
        fun _ y => (trussWeight P y).getD 0)
      (OC.mk' P.elements.length 0.5 0 1.0e3 1.0e-3 0.15 (List.replicate P.elements.length 0.01)
        (List.replicate P.elements.length 1)) (runTruss P fuel) := by
  have := trussLoop_run h (fuel := fuel) (move := 0.15) (eps := 1.0e-5) (by norm_num) (by norm_num) (by norm_num) 50
    (by norm_num) (OC.mk' P.elements.length 0.5 0 1.0e3 1.0e-3 0.15 (List.replicate P.elements.length 0.01)
        (List.replicate P.elements.length 1)) ⟨rfl, by norm_num [OC.mk'], rfl, by norm_num [OC.mk'],
        by norm_num [OC.mk'], rfl, rfl⟩ rfl
  rw [show (fun a b : ℝ => 0.85 * a ≤ b ∧ b ≤ 1.15 * a) = fun a b => (1 - 0.15) * a ≤ b ∧ b ≤ (1 + 0.15) * a by norm_num]
  exact ⟨this, (trussLoop_updates P fuel 50 _ _).1⟩

/-! ### Sections for full stress -/

/-- **C126**: the sections for full stress.  The analysis succeeds and its axial forces balance the loads.  The new section
of a pulled bar carries the axial force at the limit for tension, that of any other bar at the limit for compression; no
section that carries it within both limits is smaller. -/
theorem C126_stress {x : List (Vec ℝ)} {elements : List (List ℕ)} {ufixed qfixed : List ((ℕ × ℕ) × ℝ)}
    (h : TrussOk x elements ufixed qfixed) (hp : ∀ p ∈ x, p.size = 2) {A0 E st sc : ℝ} (hA : 0 < A0) (hE : 0 < E)
    (hst : 0 < st) (hsc : 0 < sc) :
    ∃ u A, stressDesign x elements ufixed qfixed A0 E st sc = some (u, true, A) ∧ A.length = elements.length ∧
      Balanced x elements ufixed qfixed (fun i => axialForce E A0 x elements[i] (valOf u)) u ∧
      (∃ i : Fin elements.length, axialForce E A0 x elements[i] (valOf u) ≠ 0) ∧
      ∀ i : Fin elements.length, ∃ a, A[(i : ℕ)]? = some a ∧ 0 ≤ a ∧
        (0 < axialForce E A0 x elements[i] (valOf u) → axialForce E A0 x elements[i] (valOf u) = st * a) ∧
        (axialForce E A0 x elements[i] (valOf u) ≤ 0 → -axialForce E A0 x elements[i] (valOf u) = sc * a) ∧
        ∀ b, axialForce E A0 x elements[i] (valOf u) ≤ st * b → -axialForce E A0 x elements[i] (valOf u) ≤ sc * b → a ≤ b := by
  obtain ⟨u, a1, a2, a3, a4⟩ := truss_analysis useCG_finds useCG_certifies hE h (c := fun _ => A0) fun _ => hA
  have hL := linear_truss hE.le h.bars
  have hi : designItems 2 (trussCore E) [0, 1] x elements (elements.map fun _ => A0) =
      some (baseItems (trussCore E) [0, 1] x elements fun _ => A0) := by
    refine Eq.trans (designItems_eq hL (by rw [List.length_map])) (congrArg some (congrArg List.ofFn (funext fun i => ?_)))
    refine congrArg _ ?_
    simp
  have hul : u.length = x.length := by rw [a2.1]; simp [freeTable]
  have hus : ∀ p ∈ u, p.size = 2 := by
    intro p hp
    obtain ⟨n, hn, rfl⟩ := List.getElem_of_mem hp
    have key : ∀ d : ℕ, d < u[n].size ↔ d < 2 := by
      intro d
      have h2 := a2.2 n d
      have h3 : (nodal u n d).isSome ↔ d < u[n].size := by
        simp only [nodal, List.getElem?_eq_getElem hn, Option.bind_eq_bind, Option.bind_some, vec_at_nat]
        simp [Vec.size]
      rw [← h3, h2]
      exact ⟨fun h => (freeTable_lt h).2, fun h => freeTable_isSome (by omega) h⟩
    have k1 := key 2
    have k2 := key 1
    omega
  have hm : elements.mapM (stressSection x u E st sc A0) = some (elements.map fun e =>
      if 0 < axialForce E A0 x e (valOf u) then axialForce E A0 x e (valOf u) / st
      else -axialForce E A0 x e (valOf u) / sc) :=
    mapM_some fun e he => stressSection_eq hp hus hul h.bars he hst hsc
  have hr : ∀ A, elements.mapM (stressSection x u E st sc A0) = some A →
      stressDesign x elements ufixed qfixed A0 E st sc = some (u, true, A) := by
    intro A hA
    unfold stressDesign
    simp only [hi, Option.bind_eq_bind, Option.bind_some, Option.pure_def]
    rw [show (List.map (fun it : ElemData ℝ => AsmCall.matrix it.Ke it.nte it.element)
      (baseItems (trussCore E) [0, 1] x elements fun _ => A0)) = (baseItems (trussCore E) [0, 1] x elements fun _ => A0).map
        ElemData.call from rfl, a1]
    simp only [Option.bind_some, hA]
  refine ⟨u, _, hr _ hm, List.length_map _, a3, ?_, fun i => ⟨_, by
    rw [List.getElem?_map, List.getElem?_eq_getElem i.2, Option.map_some], ?_⟩⟩
  · by_contra hc
    push Not at hc
    rw [Finset.sum_eq_zero fun i _ => by rw [hc i, zero_mul]] at a4
    exact lt_irrefl _ a4
  · simp only [Fin.getElem_fin]
    generalize axialForce E A0 x elements[(i : ℕ)] (valOf u) = N
    split_ifs with hN
    · refine ⟨(div_pos hN hst).le, fun _ => by field_simp, fun h => absurd hN (not_lt.2 h), fun b hb _ => ?_⟩
      rw [div_le_iff₀ hst, mul_comm]
      exact hb
    · have hN' := not_lt.1 hN
      refine ⟨div_nonneg (by linarith) hsc.le, fun h => absurd h hN, fun _ => by field_simp, fun b _ hb => ?_⟩
      rw [div_le_iff₀ hsc, mul_comm]
      exact hb

/-! ### The programs as they are -/

theorem truncate_intCast (k : ℤ) : truncate (k : ℝ) = k := by
  unfold truncate
  split_ifs <;> simp

/-- What the predicates of the programs choose. -/
theorem truss_predicates {held loaded : ℝ × ℝ → Bool}
    (hp : held = trussHeld ∧ loaded = trussLoaded ∨ held = trussHeldInt ∧ loaded = trussLoadedInt) {i j : ℕ} (hi : i ≤ 4)
    (hj : j ≤ 2) : (held (1000 * i, 1000 * j) = true ↔ i = 0 ∧ (j = 0 ∨ j = 2)) ∧
      (loaded (1000 * i, 1000 * j) = true ↔ i = 4 ∧ j = 1) := by
  have t : ∀ a b : ℕ, truncate (1000 * (a : ℝ) - 1000 * b) = 1000 * a - 1000 * b := by
    intro a b
    have := truncate_intCast (1000 * a - 1000 * b)
    push_cast at this
    exact this
  have t0 : ∀ a : ℕ, truncate (1000 * (a : ℝ)) = 1000 * a := by
    intro a
    have := t a 0
    simpa using this
  rcases hp with ⟨rfl, rfl⟩ | ⟨rfl, rfl⟩
  · interval_cases i <;> interval_cases j <;> norm_num [trussHeld, trussLoaded]
  · have t1 := t j 2
    have t2 := t i 4
    have t3 := t j 1
    norm_num at t1 t2 t3
    simp only [trussHeldInt, trussLoadedInt, t0, t1, t2, t3]
    interval_cases i <;> interval_cases j <;> norm_num

/-- **C126**: the problem of the programs as they are.  With either meaning of `abs` it has 15 nodes at distances of 1000,
the nodes `(0, 0)` and `(0, 2000)` are held, the node `(4000, 1000)` is loaded with 5000 downwards, and it can be
analysed. -/
theorem C126_sample (held loaded : ℝ × ℝ → Bool)
    (hp : held = trussHeld ∧ loaded = trussLoaded ∨ held = trussHeldInt ∧ loaded = trussLoadedInt) :
    ∃ x elements ufixed qfixed, trussProblem sampleGround held loaded (-5000) = some (x, elements, ufixed, qfixed) ∧
      x.length = 15 ∧ (∀ p ∈ x, p.size = 2) ∧
      (∀ i ≤ 4, ∀ j ≤ 2, coord x (3 * i + j) 0 = 1000 * i ∧ coord x (3 * i + j) 1 = 1000 * j) ∧
      (∀ n d, (n, d) ∈ ufixed.map Prod.fst ↔ (n = 0 ∨ n = 2) ∧ d < 2) ∧
      (∀ n d, nodalLoad qfixed n d = if n = 13 ∧ d = 1 then -5000 else 0) ∧ TrussOk x elements ufixed qfixed := by
  obtain ⟨x, elements, ufixed, qfixed, e, lx, hs, -, hc, -, -, -, keys, loads, ok⟩ := C126_problem sampleGround
    (by norm_num [sampleGround]) (by norm_num [sampleGround]) (by norm_num [sampleGround]) (by norm_num [sampleGround])
    held loaded (-5000)
  have lx : x.length = 15 := lx
  have hc : ∀ i ≤ 4, ∀ j ≤ 2, coord x (3 * i + j) 0 = 1000 * i ∧ coord x (3 * i + j) 1 = 1000 * j := by
    intro i hi j hj
    have := hc i hi j hj
    norm_num [sampleGround] at this
    exact this
  have hnode : ∀ n < 15, ∃ i ≤ 4, ∃ j ≤ 2, n = 3 * i + j := fun n hn => ⟨n / 3, by omega, n % 3, by omega, by omega⟩
  have hheld : ∀ n < 15, held (coord x n 0, coord x n 1) = true ↔ n = 0 ∨ n = 2 := by
    intro n hn
    obtain ⟨i, hi, j, hj, rfl⟩ := hnode n hn
    rw [(hc i hi j hj).1, (hc i hi j hj).2, (truss_predicates hp hi hj).1]
    omega
  have hload : ∀ n < 15, loaded (coord x n 0, coord x n 1) = true ↔ n = 13 := by
    intro n hn
    obtain ⟨i, hi, j, hj, rfl⟩ := hnode n hn
    rw [(hc i hi j hj).1, (hc i hi j hj).2, (truss_predicates hp hi hj).2]
    omega
  refine ⟨x, elements, ufixed, qfixed, e, lx, hs, hc, fun n d => ?_, fun n d => ?_, ?_⟩
  · rw [keys, lx]
    constructor
    · rintro ⟨h1, h2, h3⟩
      exact ⟨(hheld n h1).1 h3, h2⟩
    · rintro ⟨h1, h2⟩
      have : n < 15 := by omega
      exact ⟨this, h2, (hheld n this).2 h1⟩
  · rw [loads, lx]
    refine if_congr ?_ rfl rfl
    constructor
    · rintro ⟨h1, h2, h3⟩
      exact ⟨(hload n h1).1 h3, h2⟩
    · rintro ⟨rfl, h2⟩
      exact ⟨by norm_num, h2, (hload 13 (by norm_num)).2 rfl⟩
  · refine ok (by norm_num [sampleGround]) (by norm_num [sampleGround]) (by norm_num)
      ⟨0, by omega, 2, by omega, by norm_num, (hheld 0 (by norm_num)).2 (by norm_num), (hheld 2 (by norm_num)).2 (by norm_num)⟩
      ⟨13, by omega, (hload 13 (by norm_num)).2 rfl, ?_⟩
    rw [Bool.eq_false_iff]
    intro h
    have := (hheld 13 (by norm_num)).1 h
    omega

/-- **C126**: the size optimisation as it is: its problem is built and every run is sound. -/
theorem C126_sizes (held loaded : ℝ × ℝ → Bool)
    (hp : held = trussHeld ∧ loaded = trussLoaded ∨ held = trussHeldInt ∧ loaded = trussLoadedInt) :
    ∃ P, sampleTruss held loaded = some P ∧ P.Ok ∧ ∀ fuel, SoundTrussRun P 1.0e-5 (fun a => 0 < a ∧ a ≤ 1)
      (fun a b => 0.85 * a ≤ b ∧ b ≤ 1.15 * a) 50 (runTruss P fuel) := by
  obtain ⟨x, elements, ufixed, qfixed, e, -, hs, -, -, -, ok⟩ := C126_sample held loaded hp
  obtain ⟨P, e, hP, -⟩ := C126_program sampleGround held loaded (-5000) e ok hs (E := 210000) (A0 := 1.0e-5) (A1 := 1.5e2)
    (limit := 0.5) (scale := 1.0e-3) (by norm_num) (by norm_num) (by norm_num) (by norm_num)
  exact ⟨P, e, hP, fun fuel => (C126_run hP fuel).1⟩

/-- **C126**: the program for full stress as it is: its solver converges, the axial forces balance the loads, and every
bar gets the section that carries its axial force at the stress 50. -/
theorem C126_stresses (held loaded : ℝ × ℝ → Bool)
    (hp : held = trussHeld ∧ loaded = trussLoaded ∨ held = trussHeldInt ∧ loaded = trussLoadedInt) :
    ∃ x elements ufixed qfixed u A, trussProblem sampleGround held loaded (-5000) = some (x, elements, ufixed, qfixed) ∧
      sampleStress held loaded = some (u, true, A) ∧ A.length = elements.length ∧
      Balanced x elements ufixed qfixed (fun i => axialForce 200000 0.25 x elements[i] (valOf u)) u ∧
      ∀ i : Fin elements.length, A[(i : ℕ)]? = some (|axialForce 200000 0.25 x elements[i] (valOf u)| / 50) := by
  obtain ⟨x, elements, ufixed, qfixed, e, -, hs, -, -, -, ok⟩ := C126_sample held loaded hp
  obtain ⟨u, A, e1, e2, e3, -, e4⟩ := C126_stress ok hs (A0 := 0.25) (E := 200000) (st := 50) (sc := 50) (by norm_num)
    (by norm_num) (by norm_num) (by norm_num)
  refine ⟨x, elements, ufixed, qfixed, u, A, e, ?_, e2, e3, fun i => ?_⟩
  · unfold sampleStress
    simp only [e, Option.bind_eq_bind, Option.bind_some]
    exact e1
  · obtain ⟨a, a1, -, a2, a3, -⟩ := e4 i
    rw [a1]
    congr 1
    rcases lt_or_ge 0 (axialForce 200000 0.25 x elements[i] (valOf u)) with h | h
    · rw [abs_of_pos h]
      linarith [a2 h]
    · rw [abs_of_nonpos h]
      linarith [a3 h]

/-! ### Cases -/

/-- One cell with its diagonals, held at the left, pulled at the upper right corner: the problem is built, a design with
unequal variables is evaluated, the run is sound, and the sections for full stress are found. -/
example : ∃ x elements ufixed qfixed P e u A,
    trussProblem ⟨4, 3, 1, 1, 6⟩ (fun r => decide (r.1 = 0)) (fun r => decide (r.1 = 4 ∧ r.2 = 3)) 2 =
      some (x, elements, ufixed, qfixed) ∧ [2, 1] ∈ elements ∧ barLen x [2, 1] = 5 ∧
    trussProgram ⟨4, 3, 1, 1, 6⟩ (fun r => decide (r.1 = 0)) (fun r => decide (r.1 = 4 ∧ r.2 = 3)) 2 10 0.1 1 0.5 1 =
      some P ∧ P.Ok ∧ evaluateTruss P (List.replicate P.elements.length 0.75) = some e ∧
      e.Sound P (List.replicate P.elements.length 0.75) ∧
      SoundTrussRun P 1.0e-5 (fun a => 0 < a ∧ a ≤ 1) (fun a b => 0.85 * a ≤ b ∧ b ≤ 1.15 * a) 50 (runTruss P 9) ∧
      stressDesign x elements ufixed qfixed 1 10 2 3 = some (u, true, A) := by
  obtain ⟨x, elements, ufixed, qfixed, e, lx, hs, -, hc, -, hb, -, -, -, ok⟩ := C126_problem ⟨4, 3, 1, 1, 6⟩
    (by norm_num) (by norm_num) (by norm_num) (by norm_num) (fun r => decide (r.1 = 0))
    (fun r => decide (r.1 = 4 ∧ r.2 = 3)) 2
  have lx : x.length = 4 := by simpa using lx
  have c0 := hc 0 (by norm_num) 0 (by norm_num)
  have c1 := hc 0 (by norm_num) 1 (by norm_num)
  have c2 := hc 1 (by norm_num) 0 (by norm_num)
  have c3 := hc 1 (by norm_num) 1 (by norm_num)
  norm_num at c0 c1 c2 c3
  have hok := ok (by norm_num) (by norm_num) (by norm_num)
    ⟨0, by omega, 1, by omega, by norm_num, by simp [c0.1], by simp [c1.1]⟩
    ⟨3, by omega, by simp [c3.1, c3.2], by simp [c3.1]⟩
  obtain ⟨P, p1, hP, -⟩ := C126_program _ _ _ _ e hok hs (E := 10) (A0 := 0.1) (A1 := 1) (limit := 0.5) (scale := 1)
    (by norm_num) (by norm_num) (by norm_num) (by norm_num)
  obtain ⟨ev, v1, v2⟩ := C126_evaluation hP (s := List.replicate P.elements.length 0.75)
    ⟨by simp, fun a ha => by rw [List.eq_of_mem_replicate ha]; norm_num⟩
  obtain ⟨u, A, s1, -⟩ := C126_stress hok hs (A0 := 1) (E := 10) (st := 2) (sc := 3) (by norm_num) (by norm_num)
    (by norm_num) (by norm_num)
  refine ⟨x, elements, ufixed, qfixed, P, ev, u, A, e, ?_, ?_, p1, hP, v1, v2, (C126_run hP 9).1, s1⟩
  · rw [(hb 2 (by omega) 1 (by omega)).2]
    norm_num [barSpan, c1.1, c1.2, c2.1, c2.2]
  · have h25 : Real.sqrt 25 = 5 := by
      rw [show (25 : ℝ) = 5 ^ 2 by norm_num]
      exact Real.sqrt_sq (by norm_num)
    simp only [barLen, barSpan, List.getElem?_cons_zero, List.getElem?_cons_succ, Option.getD_some, c1.1, c1.2, c2.1,
      c2.2]
    rw [← h25]
    congr 1
    norm_num

/-- Held at one node only, the cell may turn: the condition on the supports is needed. -/
example {elements : List (List ℕ)} (he : (⟨4, 3, 1, 1, 6⟩ : GrandStructure ℝ).elements = some elements) :
    ¬ Stiff (asVectors (groundNodes ⟨4, 3, 1, 1, 6⟩)) elements [((0, 0), 0), ((0, 1), 0)] := by
  intro h
  obtain ⟨x, hx⟩ : ∃ x, x = asVectors (groundNodes ⟨4, 3, 1, 1, 6⟩) := ⟨_, rfl⟩
  have hlen : x.length = 4 := by rw [hx, asVectors, List.length_map, groundNodes, length_grid]; norm_num
  rw [← hx] at h
  have c0 := ground_coord ⟨4, 3, 1, 1, 6⟩ (i := 0) (j := 0) (by norm_num) (by norm_num)
  have c2 := ground_coord ⟨4, 3, 1, 1, 6⟩ (i := 1) (j := 0) (by norm_num) (by norm_num)
  rw [← hx] at c0 c2
  norm_num at c0 c2
  have := congrFun (congrFun (h (fun n d => if n < 4 ∧ d < 2 then rigidAt x 0 0 1 n d else 0) ?_ ?_) 2) 1
  · simp [rigidAt, c2.1] at this
  · intro m j hm
    show (if m < 4 ∧ j < 2 then rigidAt x 0 0 1 m j else 0) = 0
    split_ifs with hc
    · have : (m, j) = (0, 0) ∨ (m, j) = (0, 1) := by
        by_contra h'
        exact hm ⟨by omega, hc.2, by simpa using h'⟩
      rcases this with h | h
      · cases h
        simp [rigidAt, c0.2]
      · cases h
        simp [rigidAt, c0.1]
    · rfl
  · intro e hm
    obtain ⟨i, hi, j, hj, k, hk, l, hl, hlt, -, rfl⟩ := (ground_mem he (by norm_num) (by norm_num) e).1 hm
    dsimp only at hi hj hk hl hlt ⊢
    have b1 : (1 + 1) * i + j < 4 := by omega
    have b2 : (1 + 1) * k + l < 4 := by omega
    unfold elongation
    simp only [List.getElem?_cons_zero, List.getElem?_cons_succ, Option.getD_some, b1, b2, barSpan, rigidAt]
    norm_num
    left
    ring

end Pansfem
