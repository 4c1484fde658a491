/-
C124: the program that optimises with a level set function, from the mesh to the last pass.
-/
import Verif.Lemmas.LevelSetFirst
import Verif.Props.C122_DensityProblem

noncomputable section

namespace Pansfem

/-! ### The problem -/

/-- **C124**: the problem of the program.  On every mesh of at most 50000 nodes whose left side is held and which is
loaded at a node that is not, everything before the loop succeeds: mesh, supports and loads are those of `C122_problem`,
the level set function is fixed, at zero, exactly at the nodes that the third predicate chooses, and the loop can treat
the problem. -/
theorem C124_problem (m : SquareMesh ℝ) (hx : 0 < m.nx) (hy : 0 < m.ny) (h1 : 0 < m.x) (h2 : 0 < m.y)
    (hN : (m.nx + 1) * (m.ny + 1) ≤ 50000) {held loaded : ℝ × ℝ → Bool} (border : ℝ × ℝ → Bool)
    (hh : ∀ y, held (0, y) = true)
    (hl : ∃ i ≤ m.nx, ∃ j ≤ m.ny, loaded (m.x * (i / m.nx), m.y * (j / m.ny)) = true ∧
      held (m.x * (i / m.nx), m.y * (j / m.ny)) = false)
    {v Vmax tau E0 Emin nu nvol dt d p : ℝ} (hv : v ≠ 0) (hnu : -1 < nu ∧ nu < 1 ∧ 2 * nu ≠ 1)
    (hE : 0 < Emin ∧ 0 < E0) (hV : 0 < Vmax ∧ Vmax ≤ 1) (ht : 0 ≤ tau) (hdt : 0 < dt) (hn : 4 ≤ nvol) :
    ∃ P, levelsetProgram m held loaded border v Vmax tau E0 Emin nu nvol dt d p = some P ∧ P.Ok ∧
      densityProblem m held loaded v = some (P.x, P.elements, P.ufixed, P.qfixed) ∧
      (∀ n d, (n, d) ∈ P.phifixed.map Prod.fst ↔
        n < P.x.length ∧ d = 0 ∧ border (coord P.x n 0, coord P.x n 1) = true) ∧
      (P.Vmax = Vmax ∧ P.tau = tau ∧ P.E0 = E0 ∧ P.Emin = Emin ∧ P.nu = nu ∧ P.nvol = nvol ∧ P.dt = dt ∧ P.d = d ∧
        P.p = p) := by
  obtain ⟨us, qs, e', -⟩ := densityProblem_eq m hx hy held loaded v
  obtain ⟨x, elements, ufixed, qfixed, e, lx, le, hQ, hc, z1, -, k1, k2, k3, hr⟩ :=
    C122_problem m hx hy h1 h2 held loaded v
  obtain ⟨nodes, ps, f1, f2, f3⟩ := C54_square m hx hy [0] (by simp) (by decide) border
  obtain ⟨nodes', elements', g1, g2, -, -, g3⟩ := C112_reaction_mesh m hx hy h1 h2
  have hxe : x = asVectors (squareNodes4 m) ∧ elements = squareCells4 m := by
    have := Option.some.inj (e.symm.trans e')
    exact ⟨congrArg (·.1) this, congrArg (·.2.1) this⟩
  rw [squareNodes_eq m hx hy] at f1 g1
  rw [squareElements_eq] at g2
  obtain rfl : squareNodes4 m = nodes := Option.some.inj f1
  obtain rfl : squareNodes4 m = nodes' := Option.some.inj g1
  obtain rfl : squareCells4 m = elements' := Option.some.inj g2
  rw [← hxe.1, ← hxe.2] at g3
  have keys : ∀ n d, (n, d) ∈ (fixedDofs ps).map Prod.fst ↔
      n < x.length ∧ d = 0 ∧ border (coord x n 0, coord x n 1) = true := by
    intro n d
    rw [fixedDofs_mem (by decide) f3, hxe.1, show (asVectors (squareNodes4 m)).length = (squareNodes4 m).length by
      simp [asVectors]]
    have hd : (d : ℤ) ∈ ([0] : List ℤ) ↔ d = 0 := by
      simp only [List.mem_cons, List.not_mem_nil, or_false]; omega
    rw [hd]
    constructor
    · rintro ⟨⟨r, hr, hp⟩, hd⟩
      obtain ⟨c1, c2⟩ := coord_asVectors hr
      exact ⟨(List.getElem?_eq_some_iff.1 hr).1, hd, by rw [c1, c2]; exact hp⟩
    · rintro ⟨hn, hd, hp⟩
      obtain ⟨c1, c2⟩ := coord_asVectors (List.getElem?_eq_getElem hn)
      rw [c1, c2] at hp
      exact ⟨⟨_, List.getElem?_eq_getElem hn, hp⟩, hd⟩
  refine ⟨⟨x, elements, ufixed, qfixed, fixedDofs ps, Vmax, tau, E0, Emin, nu, nvol, dt, d, p⟩, ?_, ?_, e, keys,
    ⟨rfl, rfl, rfl, rfl, rfl, rfl, rfl, rfl, rfl⟩⟩
  · unfold levelsetProgram
    simp only [e, f2, Option.bind_eq_bind, Option.bind_some, Option.pure_def]
  · obtain ⟨i, hi, j, hj, l1, l2⟩ := hl
    have hn' : (m.ny + 1) * i + j < x.length := by
      rw [lx]
      calc (m.ny + 1) * i + j < (m.ny + 1) * i + (m.ny + 1) := by omega
        _ = (m.ny + 1) * (i + 1) := by ring
        _ ≤ (m.ny + 1) * (m.nx + 1) := Nat.mul_le_mul_left _ (by omega)
        _ = _ := by ring
    have hij := hc i hi j hj
    refine ⟨hQ, g3, hr hh, fun r hr => ?_, z1, k3, ⟨_, hn', 1, by norm_num, ?_, ?_⟩, fun r hr => ?_, fun r hr => ?_,
      by simp only; omega, by simp only; rw [le]; positivity, hnu, hE, hV, ht, hdt, hn⟩
    · obtain ⟨c1, c2, -⟩ := (k1 r.1.1 r.1.2).1 (List.mem_map_of_mem hr)
      exact ⟨c1, c2⟩
    · intro hf
      have := ((k1 _ _).1 hf).2.2
      rw [hij.1, hij.2, l2] at this
      exact absurd this (by decide)
    · show nodalLoad qfixed _ 1 ≠ 0
      rw [k2, if_pos ⟨hn', rfl, by rw [hij.1, hij.2]; exact l1⟩]
      exact hv
    · obtain ⟨c1, c2, -⟩ := (keys r.1.1 r.1.2).1 (List.mem_map_of_mem hr)
      exact ⟨c1, by omega⟩
    · obtain ⟨r', hr', rfl⟩ := List.mem_map.1 hr
      exact f3.1 r' hr'

/-! ### A pass -/

/-- **C124**: every shape can be evaluated in every pass, and the evaluation is sound. -/
theorem C124_evaluation {P : LevelSetProgram} (h : P.Ok) (t : ℕ) {str : List ℝ} (hs : IsShape P.elements.length str) :
    ∃ v, levelsetEvaluate P 1 t 0 str = some v ∧ v.Sound P t str :=
  levelsetEvaluate_sound h t hs

/-- **C124**: the update of a function with one value per node.  It succeeds unless the right-hand side of the level set
equation vanishes at all nodes that are not fixed; then the solver divides zero by zero. -/
theorem C124_update {P : LevelSetProgram} (h : P.Ok) {q : LevelSetPass} (hq : q.phi.length = P.x.length)
    (h1 : ∀ v ∈ q.phi, ∃ a, v = ⟨[a]⟩) (hv : q.value.Sound P q.t q.str) :
    (LevelSetStalls P q → levelsetUpdate P q.phi q.value = none) ∧
    (¬ LevelSetStalls P q → ∃ raw phi' str', levelsetUpdate P q.phi q.value = some (raw, phi', true) ∧
      shapeOf P phi' = some str' ∧ IsShape P.elements.length str' ∧
      ∀ t v, LevelSetStep P q ⟨t, phi', str', v⟩) := by
  obtain ⟨items, q1, q2, q3⟩ := levelsetUpdate_spec h ⟨hq, h1⟩ hv
  refine ⟨fun ⟨items', q1', hst⟩ => ?_, fun hst => ?_⟩
  · obtain rfl := Option.some.inj (q1.symm.trans q1')
    exact q2 hst
  · obtain ⟨raw, phi', w1, w2, w3, w4⟩ := q3 (by
      by_contra hc
      push Not at hc
      exact hst ⟨items, q1, hc⟩)
    have hphi' : ScalarField P.x.length phi' := by rw [w4]; exact scalar_ofFn fun m => max (min 1 (valOf raw m 0)) (-1)
    exact ⟨raw, phi', _, w1, shapeOf_eq h hphi', isShape_map _ _, fun t v => ⟨⟨items, valOf raw, q1, w2, w3, w4⟩, rfl⟩⟩

/-- **C124**: when the first update succeeds.  If no neighbour of some node is fixed and the time step is small enough,
`dt*n/N*exp(p*((1 - ex)/ex + d)) < 1`, the right-hand side of the first pass does not vanish. -/
theorem C124_first {P : LevelSetProgram} (h : P.Ok) {q : LevelSetPass} (ht : q.t = 0)
    (hphi : q.phi = List.replicate P.x.length ⟨[1]⟩) (hstr : q.str = List.replicate P.elements.length 1)
    (hv : q.value.Sound P q.t q.str) {m : ℕ} (hm : m < P.x.length)
    (hfree : ∀ e ∈ P.elements, m ∈ e → ∀ k ∈ e, k < P.x.length ∧ (k, 0) ∉ P.phifixed.map Prod.fst)
    (hdt : P.dt * P.elements.length / P.x.length * Real.exp (P.p *
      ((1 - (P.Vmax + (1 - P.Vmax) * max 0 (1 - 1 / P.nvol))) / (P.Vmax + (1 - P.Vmax) * max 0 (1 - 1 / P.nvol)) + P.d)) < 1) :
    ¬ LevelSetStalls P q := by
  refine level_moves h ⟨by rw [hphi]; simp, fun v hv => ?_⟩ hv hm (fun e he hme k hk => ?_) ?_
  · rw [hphi] at hv
    exact ⟨1, List.eq_of_mem_replicate hv⟩
  · obtain ⟨h1, h2⟩ := hfree e he hme k hk
    rw [bordered, if_neg h2, hphi]
    simp [valOf, nodal, h1, Vec.at?, Vec.size]
  · have hn : (P.elements.length : ℝ) ≠ 0 := by exact_mod_cast h.nonempty.ne'
    have hN : (0 : ℝ) < P.x.length := by exact_mod_cast (by omega : 0 < P.x.length)
    have hvol : q.value.vol = 1 := by
      rw [hv.vol, hstr]
      simp [hn]
    have hex := hv.ex
    rw [ht, Nat.cast_zero, zero_add] at hex
    rw [hv.lambda, hvol, hex]
    have hT := hv.signs.2.2
    generalize Real.exp _ = X at hdt ⊢
    calc P.dt * (P.elements.length * (q.value.TDN.sum / P.x.length * X))
        = (P.dt * P.elements.length / P.x.length * X) * q.value.TDN.sum := by ring
      _ < 1 * q.value.TDN.sum := mul_lt_mul_of_pos_right hdt hT
      _ = _ := one_mul _

/-! ### Runs -/

/-- **C124**: every run is sound. -/
theorem C124_run {P : LevelSetProgram} (h : P.Ok) (N : ℕ) : SoundLevelSet P N (runLevelSet P N) := by
  have h0 : listMean (List.replicate P.elements.length (1 : ℝ)) P.elements.length = some 1 := by
    rw [listMean_eq h.nonempty]
    have : (P.elements.length : ℝ) ≠ 0 := by exact_mod_cast h.nonempty.ne'
    simp [this]
  have R := levelsetLoop_sound h N [] (List.replicate P.x.length ⟨[1]⟩) (List.replicate P.elements.length 1)
    ⟨by simp, fun v hv => ⟨1, List.eq_of_mem_replicate hv, by norm_num⟩⟩
    ⟨by simp, fun a ha => Or.inr (List.eq_of_mem_replicate ha)⟩ rfl
  unfold runLevelSet
  simp only [h0]
  simp only [List.nil_append, List.length_nil] at R
  generalize levelsetLoop P 1 N 0 _ _ _ = r at R ⊢
  refine ⟨R.count, fun i hi => by simpa using R.numbered i hi, R.start, fun q hq => (R.passes q hq).1,
    fun q hq => (R.passes q hq).2.1, fun q hq => (R.passes q hq).2.2, R.updates, fun i hi => ?_, R.exhausted, R.stalls,
    R.returns⟩
  simpa using R.settles i hi

/-- **C124**: the program as it is.  With either meaning of `abs` its problem is built: 2501 nodes, 2400 elements, the
left side held, the nodes `(60, 19)` to `(60, 21)` loaded, the function fixed on the boundary of the rectangle; and its
run of at most 200 passes is sound and gets beyond the first pass. -/
theorem C124_program (held loaded border : ℝ × ℝ → Bool)
    (hp : held = leftSide ∧ loaded = middleRight ∧ border = outerSides ∨
      held = leftSideInt ∧ loaded = middleRightInt ∧ border = outerSidesInt) :
    ∃ P, sampleLevelSet held loaded border = some P ∧ P.Ok ∧ P.x.length = 2501 ∧ P.elements.length = 2400 ∧
      (∀ n < 2501, coord P.x n 0 = ((n / 41 : ℕ) : ℝ) ∧ coord P.x n 1 = ((n % 41 : ℕ) : ℝ)) ∧
      (∀ n d, (n, d) ∈ P.ufixed.map Prod.fst ↔ n < 41 ∧ d < 2) ∧
      (∀ n d, nodalLoad P.qfixed n d = if (n = 2479 ∨ n = 2480 ∨ n = 2481) ∧ d = 1 then -1 else 0) ∧
      (∀ n d, (n, d) ∈ P.phifixed.map Prod.fst ↔
        n < 2501 ∧ d = 0 ∧ (n / 41 = 0 ∨ n / 41 = 60 ∨ n % 41 = 0 ∨ n % 41 = 40)) ∧
      SoundLevelSet P 200 (runLevelSet P 200) ∧ 2 ≤ (runLevelSet P 200).1.length := by
  have tsub : ∀ a b : ℕ, truncate ((a : ℝ) - b) = (a : ℤ) - b := by
    intro a b
    have : (a : ℝ) - b = (((a : ℤ) - b : ℤ) : ℝ) := by push_cast; ring
    rw [this, truncate]
    split_ifs
    · exact Int.floor_intCast _
    · exact Int.ceil_intCast _
  have small : ∀ k : ℤ, (|(k : ℝ)| < 1 / 10 ^ 5 ↔ k = 0) := by
    intro k
    constructor
    · intro hk
      have : |(k : ℝ)| < 1 := hk.trans (by norm_num)
      have : |k| < 1 := by exact_mod_cast this
      exact Int.abs_lt_one_iff.1 this
    · rintro rfl
      norm_num
  have small' : ∀ k : ℤ, (|(k : ℝ)| < 1 + 1 / 10 ^ 5 ↔ |k| ≤ 1) := by
    intro k
    constructor
    · intro hk
      have : |(k : ℝ)| < 2 := hk.trans (by norm_num)
      have : |k| < 2 := by exact_mod_cast this
      omega
    · intro hk
      have : |(k : ℝ)| ≤ 1 := by exact_mod_cast hk
      linarith [show (0 : ℝ) < 1 / 10 ^ 5 by norm_num]
  have near : ∀ a b : ℕ, (|(a : ℝ) - b| < 1 / 10 ^ 5 ↔ a = b) ∧
      (((|truncate ((a : ℝ) - b)| : ℤ) : ℝ) < 1 / 10 ^ 5 ↔ a = b) ∧
      (|(a : ℝ) - b| < 1 + 1 / 10 ^ 5 ↔ |(a : ℤ) - b| ≤ 1) ∧
      (((|truncate ((a : ℝ) - b)| : ℤ) : ℝ) < 1 + 1 / 10 ^ 5 ↔ |(a : ℤ) - b| ≤ 1) := by
    intro a b
    have s1 := small ((a : ℤ) - b)
    have s2 := small' ((a : ℤ) - b)
    rw [tsub]
    push_cast at s1 s2 ⊢
    have : (a : ℤ) - b = 0 ↔ a = b := by omega
    rw [s1, s2, this]
    exact ⟨Iff.rfl, Iff.rfl, Iff.rfl, Iff.rfl⟩
  have n0 := fun a : ℕ => near a 0
  have n60 := fun a : ℕ => near a 60
  have n40 := fun a : ℕ => near a 40
  have n20 := fun a : ℕ => near a 20
  push_cast at n0 n60 n40 n20
  have hheld : ∀ a b : ℕ, held ((a : ℝ), (b : ℝ)) = decide (a = 0) := by
    intro a b
    have := n0 a
    simp only [sub_zero] at this
    rcases hp with ⟨rfl, -⟩ | ⟨rfl, -⟩
    · simp only [leftSide]
      rw [decide_eq_decide, this.1]
    · simp only [leftSideInt]
      push_cast
      rw [decide_eq_decide, this.2.1]
  have hload : ∀ a b : ℕ, loaded ((a : ℝ), (b : ℝ)) = decide (a = 60 ∧ |(b : ℤ) - 20| ≤ 1) := by
    intro a b
    rcases hp with ⟨-, rfl, -⟩ | ⟨-, rfl, -⟩
    · simp only [middleRight]
      rw [decide_eq_decide, (n60 a).1, (n20 b).2.2.1]
    · simp only [middleRightInt]
      push_cast
      rw [decide_eq_decide, (n60 a).2.1, (n20 b).2.2.2]
  have hborder : ∀ a b : ℕ, border ((a : ℝ), (b : ℝ)) = decide (a = 0 ∨ a = 60 ∨ b = 0 ∨ b = 40) := by
    intro a b
    rcases hp with ⟨-, -, rfl⟩ | ⟨-, -, rfl⟩
    · simp only [outerSides]
      rw [decide_eq_decide, (n0 a).1, (n60 a).1, (n0 b).1, (n40 b).1]
    · simp only [outerSidesInt]
      push_cast
      rw [decide_eq_decide, (n0 a).2.1, (n60 a).2.1, (n0 b).2.1, (n40 b).2.1]
  obtain ⟨P, e, hP, e2, kb, c1, -, -, -, -, c6, c7, c8, c9⟩ := C124_problem programMesh (by norm_num [programMesh]) (by norm_num [programMesh])
    (by norm_num [programMesh]) (by norm_num [programMesh]) (by norm_num [programMesh]) (held := held) (loaded := loaded)
    border (by rcases hp with ⟨rfl, -⟩ | ⟨rfl, -⟩; exacts [leftSide_left, leftSideInt_left])
    ⟨60, by norm_num [programMesh], 20, by norm_num [programMesh], by
      have a1 := hheld 60 20
      have a2 := hload 60 20
      norm_num [programMesh] at a1 a2 ⊢
      exact ⟨a2, a1⟩⟩
    (v := -1) (Vmax := 0.5) (tau := 2.0e-4) (E0 := 1) (Emin := 1.0e-4) (nu := 0.3) (nvol := 100) (dt := 0.1)
    (d := -0.02) (p := 4) (by norm_num) (by norm_num) (by norm_num) (by norm_num) (by norm_num) (by norm_num)
    (by norm_num)
  obtain ⟨x, elements, ufixed, qfixed, e', lx, le, -, hc, -, -, k1, k2, -⟩ := C122_problem programMesh
    (by norm_num [programMesh]) (by norm_num [programMesh]) (by norm_num [programMesh]) (by norm_num [programMesh])
    held loaded (-1)
  have hP' := Option.some.inj (e2.symm.trans e')
  simp only [Prod.mk.injEq] at hP'
  obtain ⟨rfl, rfl, rfl, rfl⟩ := hP'
  have lx : P.x.length = 2501 := lx
  have le : P.elements.length = 2400 := le
  have hnode : ∀ n < 2501, coord P.x n 0 = ((n / 41 : ℕ) : ℝ) ∧ coord P.x n 1 = ((n % 41 : ℕ) : ℝ) := by
    intro n hn
    have := hc (n / 41) (show n / 41 ≤ 60 by omega) (n % 41) (show n % 41 ≤ 40 by omega)
    rw [show (programMesh.ny + 1) * (n / 41) + n % 41 = n from Nat.div_add_mod n 41] at this
    rw [this.1, this.2]
    simp only [programMesh]
    push_cast
    constructor <;> ring
  have hborder' : ∀ n d, (n, d) ∈ P.phifixed.map Prod.fst ↔
      n < 2501 ∧ d = 0 ∧ (n / 41 = 0 ∨ n / 41 = 60 ∨ n % 41 = 0 ∨ n % 41 = 40) := by
    intro n d
    rw [kb, lx]
    by_cases hn : n < 2501
    · rw [(hnode n hn).1, (hnode n hn).2, hborder]
      simp only [decide_eq_true_eq]
    · exact ⟨fun h => absurd h.1 hn, fun h => absurd h.1 hn⟩
  refine ⟨P, e, hP, lx, le, hnode, ?_, ?_, hborder', C124_run hP 200, ?_⟩
  · intro n d
    rw [k1, lx]
    by_cases hn : n < 2501
    · rw [(hnode n hn).1, (hnode n hn).2, hheld]
      simp only [decide_eq_true_eq]
      omega
    · exact ⟨fun h => absurd h.1 hn, fun h => absurd (by omega) hn⟩
  · intro n d
    rw [k2, lx]
    by_cases hn : n < 2501
    · rw [(hnode n hn).1, (hnode n hn).2, hload]
      simp only [hn, true_and, decide_eq_true_eq]
      have : (d = 1 ∧ n / 41 = 60 ∧ |((n % 41 : ℕ) : ℤ) - 20| ≤ 1) ↔ ((n = 2479 ∨ n = 2480 ∨ n = 2481) ∧ d = 1) := by
        rw [abs_le]
        omega
      simp only [this]
    · rw [if_neg (fun h => hn h.1), if_neg (fun h => hn (by omega))]
  · have R := C124_run hP 200
    generalize runLevelSet P 200 = r at R ⊢
    obtain ⟨q, hq, hq1, hq2⟩ := R.start (by norm_num)
    have h0 : 0 < r.1.length := by
      rw [List.length_pos_iff]
      rintro hn
      rw [hn] at hq
      simp at hq
    have hq0 : r.1[0] = q := by
      rw [List.head?_eq_getElem?, List.getElem?_eq_getElem h0] at hq
      exact Option.some.inj hq
    by_contra hlen
    have hlen : r.1.length = 1 := by omega
    have hr : r.1 = [q] := by
      obtain ⟨a, ha⟩ := List.length_eq_one_iff.1 hlen
      rw [ha] at hq ⊢
      simpa using hq
    have hmem : q ∈ r.1 := by rw [hr]; simp
    have ht : q.t = 0 := by rw [← hq0]; exact R.numbered 0 h0
    have hmove : ¬ LevelSetStalls P q := by
      refine C124_first hP ht hq1 hq2 (R.values q hmem) (m := 1250) (by omega) (fun e he hme k hk => ?_) ?_
      · have hcells : P.elements = squareCells4 programMesh := by
          obtain ⟨us, qs, e3, -⟩ := densityProblem_eq programMesh (by norm_num [programMesh]) (by norm_num [programMesh])
            held loaded (-1)
          exact congrArg (·.2.1) (Option.some.inj (e2.symm.trans e3))
        rw [hcells, squareCells4] at he
        obtain ⟨p, hp', rfl⟩ := List.mem_map.1 he
        obtain ⟨i, hi, j, hj, rfl⟩ := mem_grid.1 hp'
        have hi : i < 60 := hi
        have hj : j < 40 := hj
        rw [hborder', lx]
        simp only [quad, squareNode, programMesh, List.mem_cons, List.not_mem_nil, or_false] at hme hk
        omega
      · rw [c1, c6, c7, c8, c9, lx, le]
        have : Real.exp (4 * ((1 - (0.5 + (1 - 0.5) * max 0 (1 - 1 / 100))) /
            (0.5 + (1 - 0.5) * max 0 (1 - 1 / 100)) + -0.02)) ≤ 1 := by
          rw [Real.exp_le_one_iff]
          norm_num
        generalize Real.exp _ = X at this ⊢
        push_cast
        linarith
    cases h2 : r.2 with
    | undefined =>
      obtain ⟨q', l1, -, l3⟩ := R.stalls.1 h2
      rw [hr] at l1
      obtain rfl : q = q' := by simpa using l1
      exact hmove l3
    | stuck => exact R.returns h2
    | optimised =>
      have := ((R.settles 0 h0).2 ⟨by omega, h2⟩).1
      rw [c6] at this
      norm_num at this
    | exhausted =>
      have := R.exhausted h2
      omega

/-! ### Cases -/

/-- Two elements whose nodes are all on the boundary: the first pass is evaluated, then the solver fails. -/
example : ∃ P q, levelsetProgram ⟨2, 1, 2, 1⟩ (fun r => decide (r.1 = 0)) (fun r => decide (r.1 = 2 ∧ r.2 = 1))
      (fun r => decide (r.2 = 0 ∨ r.2 = 1)) 3 0.5 0.1 1 0.1 0.3 10 0.1 0 4 = some P ∧ P.Ok ∧
    runLevelSet P 5 = ([q], .undefined) ∧ LevelSetStalls P q := by
  obtain ⟨P, e, hP, e2, kb, c1, c2, c3, c4, c5, c6, -⟩ := C124_problem ⟨2, 1, 2, 1⟩ (by norm_num) (by norm_num) (by norm_num)
    (by norm_num) (by norm_num) (held := fun r => decide (r.1 = 0)) (loaded := fun r => decide (r.1 = 2 ∧ r.2 = 1))
    (fun r => decide (r.2 = 0 ∨ r.2 = 1)) (by simp) ⟨2, by norm_num, 1, by norm_num, by norm_num⟩
    (v := 3) (Vmax := 0.5) (tau := 0.1) (E0 := 1) (Emin := 0.1) (nu := 0.3) (nvol := 10) (dt := 0.1)
    (d := 0) (p := 4) (by norm_num) (by norm_num) (by norm_num) (by norm_num) (by norm_num) (by norm_num)
    (by norm_num)
  obtain ⟨x, elements, ufixed, qfixed, e', lx, le, -, hc, -⟩ := C122_problem ⟨2, 1, 2, 1⟩
    (by norm_num) (by norm_num) (by norm_num) (by norm_num) (fun r => decide (r.1 = 0))
    (fun r => decide (r.1 = 2 ∧ r.2 = 1)) 3
  have hP' := Option.some.inj (e2.symm.trans e')
  simp only [Prod.mk.injEq] at hP'
  obtain ⟨rfl, rfl, rfl, rfl⟩ := hP'
  have lx : P.x.length = 6 := lx
  have hfree : freeDofs (freeTable P.x.length 1) P.phifixed = [] := by
    rw [List.eq_nil_iff_forall_not_mem]
    intro p hp
    have hf : IsFree (freeTable P.x.length 1) P.phifixed (p.1, p.2) := of_decide_eq_true (List.mem_filter.1 hp).2
    obtain ⟨a1, a2, a3⟩ := free_table.1 hf
    refine a3 ((kb _ _).2 ⟨a1, by omega, ?_⟩)
    have := hc (p.1 / 2) (by show p.1 / 2 ≤ 2; omega) (p.1 % 2) (by show p.1 % 2 ≤ 1; omega)
    rw [show (1 + 1) * (p.1 / 2) + p.1 % 2 = p.1 from Nat.div_add_mod p.1 2] at this
    rw [this.2]
    rcases Nat.mod_two_eq_zero_or_one p.1 with h | h <;> norm_num [h]
  have R := C124_run hP 5
  generalize hrun : runLevelSet P 5 = r at R
  obtain ⟨q, hq, -⟩ := R.start (by norm_num)
  have hone : r.1 = [q] := by
    rcases hr : r.1 with _ | ⟨a, _ | ⟨b, l⟩⟩
    · rw [hr] at hq; simp at hq
    · rw [hr] at hq; simpa using hq
    · have hch := R.updates
      rw [hr, List.isChain_cons_cons] at hch
      obtain ⟨items, raw, -, hm, -⟩ := hch.1.equation
      unfold StepMet at hm
      rw [hfree] at hm
      simp [dofNorm] at hm
  have hset := R.settles 0 (by rw [hone]; simp)
  have hnot : r.2 ≠ .optimised := by
    intro ho
    have := (hset.2 ⟨by rw [hone]; simp, ho⟩).1
    rw [c6] at this
    norm_num at this
  have hend : r.2 = .undefined := by
    cases h2 : r.2 with
    | undefined => rfl
    | stuck => exact absurd h2 R.returns
    | optimised => exact absurd h2 hnot
    | exhausted =>
      have := R.exhausted h2
      rw [hone] at this
      simp at this
  obtain ⟨q', l1, -, l3⟩ := R.stalls.1 hend
  rw [hone] at l1
  obtain rfl : q = q' := by simpa using l1
  exact ⟨P, q, e, hP, hrun.trans (Prod.ext hone hend), l3⟩

end Pansfem
