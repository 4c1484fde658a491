/-
C114: the first pass of the total Lagrange program is the linear analysis.
-/
import Verif.Props.C114_SolidLinear

namespace Pansfem

open Matrix

theorem setDirichlet_length {u w : List (Vec ℝ)} {t t' : List (List ℤ)} {bc : List ((ℕ × ℕ) × ℝ)}
    (h : setDirichlet u t bc = some (w, t')) : w.length = u.length := by
  unfold setDirichlet at h
  refine foldlM_inv (P := fun s : List (Vec ℝ) × List (List ℤ) => s.1.length = u.length) ?_ _ _ _ rfl h
  intro s p s' hs h1
  simp only [Option.bind_eq_bind, Option.bind_eq_some_iff, Option.pure_def, Option.some.injEq] at h1
  obtain ⟨v, hv, t'', -, rfl⟩ := h1
  rw [← hs]
  exact nodalPut_length hv

section
variable {x : List (Vec ℝ)} {elements : List (List ℕ)} {bc q : List ((ℕ × ℕ) × ℝ)} {E V : ℝ}

/-- For a field without displacements the loop of the total Lagrange program makes the calls of the linear program, with
zero element vectors. -/
theorem both_linear {u : List (Vec ℝ)} (hu : ∀ n d, valOf u n d = 0) : ∀ (elements : List (List ℕ))
    (cs : List (AsmCall ℝ)),
    bothCalls 3 (fun X U => solidTL SF.cubic8 IC.gauss8Cubic X U E V) [0, 1, 2] x elements u = some cs →
    ∃ ks, matrixCalls 3 (fun X => solidStiffness SF.cubic8 IC.gauss8Cubic X E V) [0, 1, 2] x elements = some ks ∧
      ∀ v n d, residual cs v n d = residual ks v n d := by
  intro elements
  induction elements with
  | nil =>
    intro cs h
    simp only [bothCalls, List.mapM_nil, Option.pure_def, Option.some.injEq] at h
    subst h
    exact ⟨[], rfl, fun _ _ _ => rfl⟩
  | cons e elements ih =>
    intro cs h
    rw [bothCalls, List.mapM_cons] at h
    simp only [Option.pure_def, Option.bind_eq_bind, Option.bind_eq_some_iff, Option.some.injEq] at h
    obtain ⟨c, hc, cs', hcs, rfl⟩ := h
    obtain ⟨ks, hks, hres⟩ := ih cs' hcs
    have hc' := (bothCall_iff (n := 8) (d := 3) (k := 3) (dl := [0, 1, 2]) (x := x) (u := u) (e := e)
      (core := fun X U => solidTL SF.cubic8 IC.gauss8Cubic X U E V) (c := c) rfl).1 (by
        simp only [Option.pure_def, Option.bind_eq_bind, Option.bind_eq_some_iff, Option.some.injEq, Prod.exists]
        simpa only [Prod.exists] using hc)
    obtain ⟨X, U, A, f, hX, hU, hA, rfl⟩ := hc'
    have hU0 : U = 0 := by
      rw [gather_coordsOf hU]
      ext i j
      exact hu _ _
    subst hU0
    obtain ⟨h1, rfl⟩ := C37_solidTL hA
    have hm : elemM 3 (fun X => solidStiffness SF.cubic8 IC.gauss8Cubic X E V) e [0, 1, 2] x =
        some (flatM A, interTable 3 8 [0, 1, 2]) := by
      unfold elemM
      have hi : interleaved 3 e.length [0, 1, 2] = some (interTable 3 8 [0, 1, 2]) :=
        interleaved_eq_some.2 ⟨rfl, by rw [gather_length hX]⟩
      simp [hi, hX, h1]
    refine ⟨.matrix (flatM A) (interTable 3 8 [0, 1, 2]) e :: ks, ?_, fun v n d => ?_⟩
    · have hks' : List.mapM (fun e => (elemM 3 (fun X => solidStiffness SF.cubic8 IC.gauss8Cubic X E V) e [0, 1, 2] x).bind
          fun r => some (AsmCall.matrix r.1 r.2 e)) elements = some ks := hks
      unfold matrixCalls
      rw [List.mapM_cons]
      simp only [hm, Option.pure_def, Option.bind_eq_bind, Option.bind_some, hks']
    · have hr := hres v n d
      have hcons : ∀ (c : AsmCall ℝ) l, residual (c :: l) v n d = residual [c] v n d + residual l v n d :=
        fun c l => residual_append [c] l v n d
      rw [hcons, hr, hcons _ ks]
      congr 1
      have hz : ∀ (l : List ℝ) (i : ℤ), (∀ a ∈ l, a = 0) → ((⟨l⟩ : Vec ℝ).at? i).getD 0 = 0 := by
        intro l i hl
        unfold Vec.at?
        split_ifs
        · cases hi : l[i.toNat]? with
          | none => rfl
          | some a => exact hl a (List.mem_of_getElem? hi)
        · rfl
      have hf : ∀ i, (AsmCall.both (flatM A) (flatV (0 : Fin 8 × Fin 3 → ℝ)) (interTable 3 8 [0, 1, 2]) e).rhs i = 0 :=
        fun i => hz _ _ fun a ha => by
          obtain ⟨j, rfl⟩ := (List.mem_ofFn' _ _).1 ha
          rfl
      have hf' : ∀ i, (AsmCall.matrix (flatM A) (interTable 3 8 [0, 1, 2]) e).rhs i = 0 := fun _ => rfl
      unfold residual
      simp only [List.map_cons, List.map_nil, hf, hf']
      rfl

/-- **C114**: on the meshes of `C114_solid`, with supports without displacement, the first pass of the total Lagrange
program solves its system unless the loads pass the test already, and its result is one of the linear analysis: it
satisfies the equations of the linear program to the tolerance of the solver. -/
theorem C114_first_pass (hB : Bricks x elements) (hE : 0 < E) (h1 : -1 < V) (h2 : 2 * V < 1)
    (hbc : ∀ p ∈ bc, p.2 = 0 ∧ p.1.1 < x.length ∧ p.1.2 < 3) (hq : ∀ p ∈ q, p.1.1 < x.length ∧ p.1.2 < 3)
    (hconn : FaceConnected x elements) (hsup : Supported3 x elements (bc.map Prod.fst))
    (huse : ∀ m < x.length, ∀ j < 3, (∃ e ∈ elements, m ∈ e) ∨ (m, j) ∈ bc.map Prod.fst)
    (hN : x.length * 3 ≤ 100000) (hpos : 0 < loadNorm q)
    (hload : 1 / 10 ^ 10 * loadNorm q ≤ outNorm (freeTable x.length 3) bc [.nodal q] ^ 2) :
    ∃ w t₁ u' calls, setDirichlet (zeroField x.length 3) (freeTable x.length 3) bc = some (w, t₁) ∧
      newtonIter useScalingCG true (loadTest q)
        (fun u => do
          return (← bothCalls 3 (fun X U => solidTL SF.cubic8 IC.gauss8Cubic X U E V) [0, 1, 2] x elements u) ++
            [.nodal q]) (renumbering t₁).1 (renumbering t₁).2 (zeroField x.length 3) w = some (some (u', true)) ∧
      solidCalls x elements q E V = some calls ∧
      (∀ n d, ¬ IsFree (freeTable x.length 3) bc (n, d) → valOf u' n d = 0) ∧
      dofNorm (freeDofs (freeTable x.length 3) bc) (residual calls (valOf u')) <
        1 / 10 ^ 10 * outNorm (freeTable x.length 3) bc [.nodal q] := by
  have hV : (1 + V) * (1 - 2 * V) ≠ 0 := (mul_pos (by linarith) (by linarith)).ne'
  have hD := solidC_eq_some.2 ⟨hV, (rfl : (E / ((1 + V) * (1 - 2 * V))) • solidC0 V = _)⟩
  obtain ⟨⟨w, t₁⟩, hset⟩ := Option.isSome_iff_exists.1
    ((C21_defined (zeroField x.length 3) (freeTable x.length 3) bc).2 fun p hp =>
      ⟨by rw [nodal_zeroField (hbc p hp).2.1 (hbc p hp).2.2]; rfl,
        by rw [dofNum_freeTable (hbc p hp).2.1 (hbc p hp).2.2]; rfl⟩)
  have hw : ∀ n d, valOf w n d = 0 := by
    intro n d
    show (nodal w n d).getD 0 = 0
    rw [((C21_setDirichlet _ w _ t₁ bc hset).2.2 n d).2]
    cases hv : lastValue bc n d with
    | none => exact valOf_zeroField _ _ n d
    | some y =>
      obtain ⟨p, hp, rfl⟩ := Option.map_eq_some_iff.1 hv
      simp [(hbc p (List.mem_reverse.1 (List.mem_of_find?_eq_some hp))).1]
  have hlw : w.length = (zeroField x.length 3).length := setDirichlet_length hset
  obtain ⟨cs, hcs⟩ : ∃ cs, bothCalls 3 (fun X U => solidTL SF.cubic8 IC.gauss8Cubic X U E V) [0, 1, 2] x elements w =
      some cs := by
    rw [← Option.isSome_iff_exists]
    refine mapM_isSome fun e he => ?_
    obtain ⟨o, A, hA, hX, -⟩ := bricks_gather hB he
    obtain ⟨g1, g2, -⟩ := hB e he
    obtain ⟨U, hU⟩ := Option.isSome_iff_exists.1 (gather_isSome (x := w) (d := 3) g2 fun m hm j => by
      rw [← setDirichlet_same hset, nodal_zeroField (nodal_lt (g1 m hm 0 (by norm_num))) j.2]; rfl)
    rw [Option.isSome_iff_exists]
    exact ⟨_, (bothCall_iff (dl := [0, 1, 2]) (k := 3) rfl).2 ⟨_, U, _, _, hX, hU,
      solidTL_eq_some.2 ⟨_, hD, brick_regular hA.ne', rfl, rfl⟩, rfl⟩⟩
  obtain ⟨ks, hks, hres⟩ := both_linear hw elements cs hcs
  have hcalls : solidCalls x elements q E V = some (ks ++ [.nodal q]) := by
    unfold solidCalls
    simp only [hks, Option.bind_eq_bind, Option.bind_some, Option.pure_def]
  set loop : List (Vec ℝ) → Option (List (AsmCall ℝ)) := fun u => do
    return (← bothCalls 3 (fun X U => solidTL SF.cubic8 IC.gauss8Cubic X U E V) [0, 1, 2] x elements u) ++ [.nodal q]
    with hloop
  have hl : loop w = some (cs ++ [.nodal q]) := by
    simp only [hloop, hcs, Option.bind_eq_bind, Option.bind_some, Option.pure_def]
  have hboth : ∀ c ∈ cs, ∃ e ∈ elements, BothCall (n := 8) (d := 3) (k := 3)
      (fun X U => solidTL SF.cubic8 IC.gauss8Cubic X U E V) [0, 1, 2] x w e c := by
    intro c hc
    obtain ⟨e, he, h⟩ := mapM_mem hcs c hc
    exact ⟨e, he, (bothCall_iff (dl := [0, 1, 2]) (k := 3) rfl).1 h⟩
  have hmem : ∀ e ∈ elements, ∃ c ∈ cs, BothCall (n := 8) (d := 3) (k := 3)
      (fun X U => solidTL SF.cubic8 IC.gauss8Cubic X U E V) [0, 1, 2] x w e c := by
    intro e he
    obtain ⟨c, hc, h⟩ := mapM_mem_of hcs e he
    exact ⟨c, hc, (bothCall_iff (dl := [0, 1, 2]) (k := 3) rfl).1 h⟩
  have hcases : ∀ {P : AsmCall ℝ → Prop}, (∀ c ∈ cs, P c) → P (.nodal q) → ∀ c ∈ cs ++ [.nodal q], P c := by
    intro P p1 p2 c hc
    simp only [List.mem_append, List.mem_singleton] at hc
    rcases hc with hc | rfl
    · exact p1 c hc
    · exact p2
  have hfit : ∀ c ∈ cs ++ [.nodal q], c.Fits (freeTable x.length 3) (zeroField x.length 3) :=
    hcases (fun c hc => by
      obtain ⟨e, -, h⟩ := hboth c hc
      exact both_fits rfl (by simp) (by norm_num) h) (nodal_fits hq)
  -- a call with zero element vector has the energy of the element matrix
  have hlin : ∀ e c, BothCall (n := 8) (d := 3) (k := 3) (fun X U => solidTL SF.cubic8 IC.gauss8Cubic X U E V)
      [0, 1, 2] x w e c → ElemCall (k := 3) (fun X => solidStiffness SF.cubic8 IC.gauss8Cubic X E V) [0, 1, 2] x e
        (match c with | .both K _ t e => .matrix K t e | c => c) ∧
      (∀ v v', callEnergy c v v' = callEnergy (match c with | .both K _ t e => .matrix K t e | c => c) v v') := by
    rintro e c ⟨X, U, A, f, hX, hU, hA, rfl⟩
    have hU0 : U = 0 := by
      rw [gather_coordsOf hU]
      ext i j
      exact hw _ _
    subst hU0
    exact ⟨⟨X, A, hX, (C37_solidTL hA).1, rfl⟩, fun _ _ => rfl⟩
  have hen : ∀ e ∈ elements, ∀ c, BothCall (n := 8) (d := 3) (k := 3)
      (fun X U => solidTL SF.cubic8 IC.gauss8Cubic X U E V) [0, 1, 2] x w e c → ∀ v : ℕ → ℕ → ℝ, 0 ≤ callEnergy c v v ∧
        (callEnergy c v v = 0 → ∃ a w, ∀ m ∈ e, ∀ j < 3, v m j = rigid3At x a w m j) := by
    intro e he c hc v
    obtain ⟨⟨X, A, hX, hA, hce⟩, hen⟩ := hlin e c hc
    rw [hen, hce, matrix_energy A (gather_length hX) rfl]
    exact brick_energy hB hE h1 h2 he hX hA v
  have hout : outNorm (freeTable x.length 3) bc (cs ++ [.nodal q]) = outNorm (freeTable x.length 3) bc [.nodal q] := by
    refine dofNorm_congr fun p _ => ?_
    rw [loadAt_append]
    have e1 := hres (fun _ _ => 0) p.1 p.2
    rw [residual_zero, residual_zero] at e1
    have e2 : loadAt ks p.1 p.2 = 0 := by
      unfold loadAt
      refine List.sum_eq_zero fun r hr => ?_
      obtain ⟨c, hc, rfl⟩ := List.mem_map.1 hr
      obtain ⟨-, e, -, X, A, -, -, rfl⟩ := (matrixCalls_some hks).1 c hc
      simp [AsmCall.rhs]
    rw [show loadAt cs p.1 p.2 = 0 by linarith, zero_add]
  have hne : outNorm (freeTable x.length 3) bc [.nodal q] ≠ 0 := by
    intro h0
    rw [h0] at hload
    have : 0 < 1 / 10 ^ 10 * loadNorm q := by positivity
    linarith [show (0 : ℝ) ^ 2 = 0 by norm_num]
  have htest : loadTest q (outNorm (freeTable x.length 3) bc [.nodal q] ^ 2) = some false := by
    rw [loadTest_eq]
    refine ⟨hpos.ne', ?_⟩
    rw [div_lt_iff₀ hpos]
    simpa using hload
  obtain ⟨u', hu', -⟩ := C113_solves (s := useScalingCG) (own := true) (test := loadTest q) (loop := loop)
    useScalingCG_finds hset (setDirichlet_same hset) hlw hl hfit (valOf_zeroField _ _) (fun _ n d _ => hw n d)
    (fun p hp => by
      have hf : IsFree (freeTable x.length 3) bc (p.1, p.2) := of_decide_eq_true (List.mem_filter.1 hp).2
      obtain ⟨a1, a2, -⟩ := free_table.1 hf
      rw [nodal_zeroField a1 a2]; rfl)
    (hcases (fun c hc => by
      obtain ⟨e, -, hb⟩ := hboth c hc
      obtain ⟨hel, -⟩ := hlin e c hb
      have := elem_sym (k := 3) (dl := [0, 1, 2]) rfl hel fun X A hA => C32_solid hA
      obtain ⟨X, U, A, f, -, -, -, rfl⟩ := hb
      exact this) (by intros; rfl))
    (fun v hv hnz => by
      obtain ⟨m, j, hne⟩ := hnz
      refine energy_pos (hcases (fun c hc => by
          obtain ⟨e, he, hb⟩ := hboth c hc
          exact (hen e he c hb v).1) (nodal_energy q v v).ge) fun hall => hne ?_
      refine bricks_zero hconn hsup huse (fun m j hnf => hv m j fun hf => hnf (free_table.1 hf)) (fun e he => ?_) m j
      obtain ⟨c, hc, hb⟩ := hmem e he
      exact (hen e he c hb v).2 (hall c (by simp [hc])))
    (by rw [hout]; exact htest) (by rw [hout]; exact hne) (le_trans free_table_length hN)
  rcases C113_pass (own := true) (test := loadTest q) (loop := loop) useScalingCG_certifies hset (setDirichlet_same hset) hl hfit
      (valOf_zeroField _ _) (fun _ n d _ => hw n d) hu' with ⟨h3, -⟩ | ⟨v, conv, h3, -, -, h4, h5⟩
  · simp at h3
  · obtain ⟨rfl, rfl⟩ := Prod.mk.inj (Option.some.inj h3)
    refine ⟨w, t₁, u', _, hset, hu', hcalls, fun n d hn => ?_, ?_⟩
    · rw [← hw n d]
      exact congrArg (fun o => o.getD 0) (h4 n d hn)
    · have h6 := h5.1 rfl
      rw [hout] at h6
      refine lt_of_eq_of_lt (dofNorm_congr fun p _ => ?_) h6
      rw [residual_append, residual_append, ← hres]
      have : (fun n d => valOf u' n d - valOf w n d) = valOf u' := by
        funext n d
        rw [hw, sub_zero]
      rw [this]

end

/-! ### Two cubes on top of each other -/

/-- The nodes of a column of two cubes. -/
def columnNodes : List (Vec ℝ) := cubeNodes ++ [⟨[0, 0, 2]⟩, ⟨[1, 0, 2]⟩, ⟨[1, 1, 2]⟩, ⟨[0, 1, 2]⟩]

/-- The two cubes. -/
def columnElements : List (List ℕ) := [[0, 1, 2, 3, 4, 5, 6, 7], [4, 5, 6, 7, 8, 9, 10, 11]]

theorem column_bricks : Bricks columnNodes columnElements := by
  intro e he
  simp only [columnElements, List.mem_cons, List.not_mem_nil, or_false] at he
  rcases he with rfl | rfl
  · refine ⟨?_, rfl, 0, 1, by simp, ?_⟩
    · intro m hm j hj
      simp only [List.mem_cons, List.not_mem_nil, or_false] at hm
      rcases j with _ | _ | _ | j
      · rcases hm with rfl | rfl | rfl | rfl | rfl | rfl | rfl | rfl <;> rfl
      · rcases hm with rfl | rfl | rfl | rfl | rfl | rfl | rfl | rfl <;> rfl
      · rcases hm with rfl | rfl | rfl | rfl | rfl | rfl | rfl | rfl <;> rfl
      · omega
    · intro i j
      fin_cases i <;> fin_cases j <;> simp [brick, unitCube, coord, nodal, columnNodes, cubeNodes, Vec.at?, Vec.size]
  · refine ⟨?_, rfl, ![0, 0, 1], 1, by simp, ?_⟩
    · intro m hm j hj
      simp only [List.mem_cons, List.not_mem_nil, or_false] at hm
      rcases j with _ | _ | _ | j
      · rcases hm with rfl | rfl | rfl | rfl | rfl | rfl | rfl | rfl <;> rfl
      · rcases hm with rfl | rfl | rfl | rfl | rfl | rfl | rfl | rfl <;> rfl
      · rcases hm with rfl | rfl | rfl | rfl | rfl | rfl | rfl | rfl <;> rfl
      · omega
    · intro i j
      fin_cases i <;> fin_cases j <;>
        norm_num [brick, unitCube, coord, nodal, columnNodes, cubeNodes, Vec.at?, Vec.size] <;> rfl

theorem column_connected : FaceConnected columnNodes columnElements := by
  have hcol : ¬ Collinear3 columnNodes 4 5 7 := by
    intro h
    have := h 0 1
    norm_num [coord, nodal, columnNodes, cubeNodes, Vec.at?, Vec.size] at this
  intro e he f hf
  simp only [columnElements, List.mem_cons, List.not_mem_nil, or_false] at he hf
  rcases he with rfl | rfl <;> rcases hf with rfl | rfl
  · exact .refl
  · exact .single ⟨by simp [columnElements], 4, 5, 7, hcol, by simp⟩
  · exact .single ⟨by simp [columnElements], 4, 5, 7, hcol, by simp⟩
  · exact .refl

theorem column_supported : Supported3 columnNodes columnElements (cubeBottom.map Prod.fst) := by
  intro a w h
  have at' : ∀ m j, m < 4 → j < 3 → rigid3At columnNodes a w m j = 0 := by
    intro m j hm hj
    refine h (m, j) ?_ ⟨[0, 1, 2, 3, 4, 5, 6, 7], by simp [columnElements], ?_⟩ hj
    · simp [cubeBottom, hm, hj]
    · simp; omega
  have c00 := at' 0 0 (by norm_num) (by norm_num)
  have c01 := at' 0 1 (by norm_num) (by norm_num)
  have c02 := at' 0 2 (by norm_num) (by norm_num)
  have c11 := at' 1 1 (by norm_num) (by norm_num)
  have c12 := at' 1 2 (by norm_num) (by norm_num)
  have c32 := at' 3 2 (by norm_num) (by norm_num)
  simp [rigid3At, coord, nodal, columnNodes, cubeNodes, Vec.at?, Vec.size] at c00 c01 c02 c11 c12 c32
  constructor
  · funext j
    fin_cases j <;> simp [c00, c01, c02]
  · funext j
    fin_cases j <;> simp <;> linarith

theorem column_bottom : ∀ p ∈ cubeBottom, p.2 = 0 ∧ p.1.1 < columnNodes.length ∧ p.1.2 < 3 := by
  intro p hp
  simp only [cubeBottom, List.mem_flatMap, List.mem_range, List.mem_map] at hp
  obtain ⟨n, hn, d, hd, rfl⟩ := hp
  exact ⟨rfl, by show n < 12; omega, hd⟩

theorem column_used : ∀ m < columnNodes.length, ∀ j < 3, (∃ e ∈ columnElements, m ∈ e) ∨
    (m, j) ∈ cubeBottom.map Prod.fst := by
  intro m hm j _
  have hm : m < 12 := hm
  left
  by_cases h8 : m < 8
  · exact ⟨[0, 1, 2, 3, 4, 5, 6, 7], by simp [columnElements], by simp; omega⟩
  · exact ⟨[4, 5, 6, 7, 8, 9, 10, 11], by simp [columnElements], by simp; omega⟩

theorem column_free : freeDofs (freeTable 12 3) cubeBottom = (List.range 8).flatMap fun i =>
    (List.range 3).map fun j => (4 + i, j) := rfl

/-- The column held at the bottom and pulled at an upper corner, linear analysis. -/
example : ∃ u, solidStatic columnNodes columnElements cubeBottom [((10, 2), 100)] 210000 (3 / 10) = some (u, true) := by
  obtain ⟨calls, hc, -, hsolve⟩ := C114_solid column_bricks (E := 210000) (V := 3 / 10) (bc := cubeBottom)
    (q := [((10, 2), 100)]) (by norm_num) (by norm_num) (by norm_num) (fun p hp => (column_bottom p hp).2)
    (by simp [columnNodes, cubeNodes]) column_connected column_supported column_used (by simp [columnNodes, cubeNodes])
  apply hsolve
  refine ⟨(10, 2), ?_, ?_⟩
  · show (10, 2) ∈ freeDofs (freeTable 12 3) cubeBottom
    rw [column_free]
    simp
    exact ⟨6, by norm_num, rfl⟩
  · have hgiven : given (zeroField columnNodes.length 3) (freeTable columnNodes.length 3) cubeBottom = fun _ _ => 0 := by
      funext m j
      unfold given
      split_ifs with hf
      · rfl
      · have hz := zeroField_val columnNodes.length 3 m j
        cases hl : lastValue cubeBottom m j with
        | none => exact hz
        | some r =>
          simp only [lastValue, Option.map_eq_some_iff] at hl
          obtain ⟨p, hp, rfl⟩ := hl
          exact (column_bottom p (List.mem_reverse.1 (List.mem_of_find?_eq_some hp))).1
    rw [hgiven, residual_zero]
    simp only [solidCalls, Option.bind_eq_bind, Option.pure_def, Option.bind_eq_some_iff, Option.some.injEq] at hc
    obtain ⟨ks, hks, rfl⟩ := hc
    have e2 : loadAt ks 10 2 = 0 := by
      unfold loadAt
      refine List.sum_eq_zero fun r hr => ?_
      obtain ⟨c, hc, rfl⟩ := List.mem_map.1 hr
      obtain ⟨-, e, -, X, A, -, -, rfl⟩ := (matrixCalls_some hks).1 c hc
      simp [AsmCall.rhs]
    rw [loadAt_append, loadAt_nodal, e2]
    simp

/-- The same body, first pass of the total Lagrange program. -/
example : ∃ w t₁ u', setDirichlet (zeroField 12 3) (freeTable 12 3) cubeBottom = some (w, t₁) ∧
    newtonIter useScalingCG true (loadTest [((10, 2), 100)])
      (fun u => do
        return (← bothCalls 3 (fun X U => solidTL SF.cubic8 IC.gauss8Cubic X U 210000 (3 / 10)) [0, 1, 2] columnNodes
          columnElements u) ++ [.nodal [((10, 2), 100)]]) (renumbering t₁).1 (renumbering t₁).2 (zeroField 12 3) w =
      some (some (u', true)) := by
  have hl : loadNorm [((10, 2), (100 : ℝ))] = 100 := by
    simp only [loadNorm, List.map_cons, List.map_nil, List.sum_cons, List.sum_nil, add_zero]
    exact Real.sqrt_sq (by norm_num)
  obtain ⟨w, t₁, u', calls, h1, h2, -⟩ := C114_first_pass column_bricks (E := 210000) (V := 3 / 10) (bc := cubeBottom)
    (q := [((10, 2), 100)]) (by norm_num) (by norm_num) (by norm_num) column_bottom
    (by simp [columnNodes, cubeNodes]) column_connected column_supported column_used (by simp [columnNodes, cubeNodes])
    (by rw [hl]; norm_num) (by
      rw [hl, outNorm, dofNorm_sq]
      show _ ≤ ((freeDofs (freeTable 12 3) cubeBottom).map fun p : ℕ × ℕ => _).sum
      rw [column_free]
      simp only [loadAt_nodal, List.map_cons, List.map_nil, List.sum_cons, List.sum_nil, add_zero]
      simp [List.range_succ]
      norm_num)
  exact ⟨w, t₁, u', h1, h2⟩

end Pansfem
