/-
C54: the fixed lists of the meshers; C91: the selected elements and edges.
-/
import Verif.Props.C53_QuadraticMesh

namespace Pansfem

/-! ### General facts -/

theorem dofsOk_true {ulist : List ℤ} (h : ulist ≠ []) (h0 : ∀ u ∈ ulist, 0 ≤ u) : dofsOk ulist = true := by
  simp [dofsOk, h]
  exact h0

section
variable {K : Type} [Zero K]

theorem mem_fixedAt {ulist : List ℤ} {pred : K × K → Bool} {w : ℕ × (K × K)} {f : (ℕ × ℤ) × K} :
    f ∈ fixedAt ulist pred w ↔ pred w.2 = true ∧ ∃ u ∈ ulist, f = ((w.1, u), 0) := by
  unfold fixedAt
  by_cases h : pred w.2 = true
  · rw [if_pos h, List.mem_map]
    simp only [h, true_and]
    constructor
    · rintro ⟨u, hu, rfl⟩; exact ⟨u, hu, rfl⟩
    · rintro ⟨u, hu, rfl⟩; exact ⟨u, hu, rfl⟩
  · rw [if_neg h]
    simp [h]

/-- Points with different numbers that are the nodes: the loop selects the right nodes. -/
theorem selects_of {ws : List (ℕ × (K × K))} {nodes : List (K × K)} (hn : (ws.map Prod.fst).Nodup)
    (h : ∀ n p, (n, p) ∈ ws ↔ nodes[n]? = some p) (ulist : List ℤ) (pred : K × K → Bool) :
    Selects nodes ulist pred (ws.flatMap (fixedAt ulist pred)) := by
  refine ⟨?_, ?_, ?_⟩
  · intro f hf
    obtain ⟨w, -, hw⟩ := List.mem_flatMap.1 hf
    obtain ⟨-, u, -, rfl⟩ := mem_fixedAt.1 hw
    rfl
  · intro n u
    simp only [List.mem_map, List.mem_flatMap, mem_fixedAt]
    constructor
    · rintro ⟨f, ⟨w, hw, hp, u', hu', rfl⟩, e⟩
      simp only [Prod.mk.injEq] at e
      obtain ⟨rfl, rfl⟩ := e
      exact ⟨⟨w.2, (h _ _).1 hw, hp⟩, hu'⟩
    · rintro ⟨⟨p, hp, hpp⟩, hu⟩
      exact ⟨((n, u), 0), ⟨(n, p), (h _ _).2 hp, hpp, u, hu, rfl⟩, rfl⟩
  · intro hu
    rw [List.map_flatMap, List.nodup_flatMap]
    constructor
    · intro w _
      show ((fixedAt ulist pred w).map Prod.fst).Nodup
      unfold fixedAt
      split_ifs
      · rw [List.map_map]
        refine List.Nodup.map ?_ hu
        intro u u' e
        simpa using e
      · exact List.nodup_nil
    · have hws : ws.Nodup := List.Nodup.of_map _ hn
      rw [List.nodup_map_iff_inj_on hws] at hn
      refine List.Pairwise.imp_of_mem ?_ hws
      intro w w' hw hw' hne x hx hx'
      apply hne
      apply hn _ hw _ hw'
      obtain ⟨f, hf, rfl⟩ := List.mem_map.1 hx
      obtain ⟨f', hf', e⟩ := List.mem_map.1 hx'
      obtain ⟨-, u, -, rfl⟩ := mem_fixedAt.1 hf
      obtain ⟨-, u', -, rfl⟩ := mem_fixedAt.1 hf'
      simp only [Prod.mk.injEq] at e
      exact e.1.symm

omit [Zero K] in
/-- Numbers `0, 1, 2, …` in order. -/
theorem mem_seq {α : Type} {n : ℕ} {ws : List (ℕ × α)} (h : ws.map Prod.fst = List.range n) (k : ℕ) (p : α) :
    (k, p) ∈ ws ↔ (ws.map Prod.snd)[k]? = some p := by
  have hn : ws.length = n := by simpa using congrArg List.length h
  have hfst : ∀ k (hk : k < ws.length), (ws[k]).1 = k := by
    intro k hk
    have : (ws.map Prod.fst)[k]? = some k := by rw [h, List.getElem?_range (by omega)]
    simpa [hk] using this
  constructor
  · intro hm
    obtain ⟨i, hi, e⟩ := List.getElem_of_mem hm
    have := hfst i hi
    rw [e] at this
    simp only at this
    subst this
    rw [List.getElem?_map, List.getElem?_eq_getElem hi, e]
    rfl
  · intro hm
    rw [List.getElem?_map] at hm
    rcases hw : ws[k]? with _ | w
    · rw [hw] at hm; exact absurd hm (by simp)
    · rw [hw] at hm
      obtain ⟨hk, e⟩ := List.getElem?_eq_some_iff.1 hw
      have := hfst k hk
      rw [e] at this
      have : (k, p) = w := Prod.ext this.symm (by simpa using hm.symm)
      rw [this, ← e]
      exact List.getElem_mem _

theorem selects_seq {n : ℕ} {ws : List (ℕ × (K × K))} (h : ws.map Prod.fst = List.range n) (ulist : List ℤ)
    (pred : K × K → Bool) : Selects (ws.map Prod.snd) ulist pred (ws.flatMap (fixedAt ulist pred)) :=
  selects_of (by rw [h]; exact List.nodup_range) (mem_seq h) ulist pred

theorem selects_intro {n : ℕ} (ws : List (ℕ × (K × K))) (h : ws.map Prod.fst = List.range n) (ulist : List ℤ)
    (pred : K × K → Bool) {nodes : Option (List (K × K))} {fixed : Option (List ((ℕ × ℤ) × K))}
    (h1 : nodes = some (ws.map Prod.snd)) (h2 : fixed = some (ws.flatMap (fixedAt ulist pred))) :
    ∃ nodes' fixed', nodes = some nodes' ∧ fixed = some fixed' ∧ Selects nodes' ulist pred fixed' :=
  ⟨_, _, h1, h2, selects_seq h ulist pred⟩

theorem selects_grid_intro (m n : ℕ) (f : ℕ → ℕ → K × K) (ulist : List ℤ)
    (pred : K × K → Bool) {nodes : Option (List (K × K))} {fixed : Option (List ((ℕ × ℤ) × K))}
    (h1 : nodes = some (grid m n f))
    (h2 : fixed = some ((grid m n fun i j => (n * i + j, f i j)).flatMap (fixedAt ulist pred))) :
    ∃ nodes' fixed', nodes = some nodes' ∧ fixed = some fixed' ∧ Selects nodes' ulist pred fixed' :=
  selects_intro (grid m n fun i j => (n * i + j, f i j)) (n := m * n)
    (by rw [map_grid]; exact grid_numbers m n) ulist pred (by rw [h1, map_grid]) h2

theorem selects_grid (m n : ℕ) (f : ℕ → ℕ → K × K) (ulist : List ℤ) (pred : K × K → Bool) :
    Selects (grid m n f) ulist pred
      ((grid m n fun i j => (n * i + j, f i j)).flatMap (fixedAt ulist pred)) := by
  have := selects_seq (ws := grid m n fun i j => (n * i + j, f i j)) (n := m * n)
    (by rw [map_grid]; exact grid_numbers m n) ulist pred
  rwa [map_grid] at this

end

/-! ### C54 for the square meshes -/

section
variable {K : Type} [Field K]

/-- C54 for `SquareMesh::GenerateFixedlist`. -/
theorem C54_square (m : SquareMesh K) (hx : 0 < m.nx) (hy : 0 < m.ny) (ulist : List ℤ) (hu : ulist ≠ [])
    (hu0 : ∀ u ∈ ulist, 0 ≤ u) (pred : K × K → Bool) :
    ∃ nodes fixed, m.nodes = some nodes ∧ m.fixedlist ulist pred = some fixed ∧
      Selects nodes ulist pred fixed := by
  refine ⟨_, _, squareNodes_eq m hx hy, ?_, selects_grid _ _ _ ulist pred⟩
  unfold SquareMesh.fixedlist
  rw [dofsOk_true hu hu0, if_neg (by simp; omega)]

/-- C54 for `SquareMesh::GenerateFixedlist2`, with the nodes of `GenerateNodes2`. -/
theorem C54_square2 (m : SquareMesh K) (hx : 0 < m.nx) (hy : 0 < m.ny) (ulist : List ℤ) (hu : ulist ≠ [])
    (hu0 : ∀ u ∈ ulist, 0 ≤ u) (pred : K × K → Bool) :
    ∃ nodes fixed, m.nodes2 = some nodes ∧ m.fixedlist2 ulist pred = some fixed ∧
      Selects nodes ulist pred fixed := by
  refine selects_intro (m.nodeWrites ++ m.verticalWrites ++ m.horizontalWrites)
    (n := (m.nx + 1) * (m.ny + 1) + (m.nx + 1) * m.ny + m.nx * (m.ny + 1)) ?_ ulist pred ?_ ?_
  · simp only [List.map_append, SquareMesh.nodeWrites, SquareMesh.verticalWrites,
      SquareMesh.horizontalWrites, map_grid]
    have e1 : (grid (m.nx + 1) m.ny fun i j => m.ny * i + j + (m.nx + 1) * (m.ny + 1))
        = (List.range ((m.nx + 1) * m.ny)).map (· + (m.nx + 1) * (m.ny + 1)) := by
      rw [← grid_numbers, map_grid]
    have e2 : (grid m.nx (m.ny + 1) fun i j => (m.ny + 1) * i + j + (m.nx + 1) * (2 * m.ny + 1))
        = (List.range (m.nx * (m.ny + 1))).map (· + ((m.nx + 1) * (m.ny + 1) + (m.nx + 1) * m.ny)) := by
      rw [← grid_numbers, map_grid]
      congr 1
      funext i j
      ring
    rw [grid_numbers, e1, e2, range_add_map, range_add_map]
  · rw [squareNodes2_eq m hx hy]
    simp only [List.map_append, SquareMesh.nodeWrites, SquareMesh.verticalWrites,
      SquareMesh.horizontalWrites, map_grid]
    rfl
  · unfold SquareMesh.fixedlist2
    rw [dofsOk_true hu hu0, if_neg (by simp; omega), List.flatMap_append, List.flatMap_append]
    rfl

/-- C54 for `GrandStructure2D::GenerateFixedlist`. -/
theorem C54_ground [LinearOrder K] (m : GrandStructure K) (hx : 0 < m.nx) (hy : 0 < m.ny) (ulist : List ℤ)
    (hu : ulist ≠ []) (hu0 : ∀ u ∈ ulist, 0 ≤ u) (pred : K × K → Bool) :
    ∃ nodes fixed, m.nodes = some nodes ∧ m.fixedlist ulist pred = some fixed ∧
      Selects nodes ulist pred fixed := by
  refine selects_grid_intro (m.nx + 1) (m.ny + 1)
    (fun i j => (m.x * ((i : K) / (m.nx : K)), m.y * ((j : K) / (m.ny : K)))) ulist pred ?_ ?_
  · unfold GrandStructure.nodes
    rw [if_neg (by omega), fill_grid]
  · unfold GrandStructure.fixedlist
    rw [dofsOk_true hu hu0, if_neg (by simp; omega)]

end

/-- C54 for `SquareMesh2::GenerateFixedlist`; the ratios must not make the divisors vanish. -/
theorem C54_graded (m : GradedMesh) (hx : 0 < m.rx) (hy : 0 < m.ry) (hx1 : m.rx ^ ((m.nx : ℝ) / 2) ≠ 1)
    (hy1 : m.ry ^ ((m.ny : ℝ) / 2) ≠ 1) (ulist : List ℤ) (hu : ulist ≠ []) (hu0 : ∀ u ∈ ulist, 0 ≤ u)
    (pred : ℝ × ℝ → Bool) :
    ∃ nodes fixed, m.nodes = some nodes ∧ m.fixedlist ulist pred = some fixed ∧
      Selects nodes ulist pred fixed := by
  have e1 : GradedMesh.scale m.x m.rx m.nx = some (0.5 * m.x / (m.rx ^ ((m.nx : ℝ) / 2) - 1)) := by
    unfold GradedMesh.scale
    rw [if_neg (by rw [not_or, sub_eq_zero]; exact ⟨by linarith, hx1⟩)]
  have e2 : GradedMesh.scale m.y m.ry m.ny = some (0.5 * m.y / (m.ry ^ ((m.ny : ℝ) / 2) - 1)) := by
    unfold GradedMesh.scale
    rw [if_neg (by rw [not_or, sub_eq_zero]; exact ⟨by linarith, hy1⟩)]
  refine selects_grid_intro (m.nx + 1) (m.ny + 1) (fun i j =>
    (GradedMesh.coordinate m.x m.rx (0.5 * m.x / (m.rx ^ ((m.nx : ℝ) / 2) - 1)) m.nx i,
      GradedMesh.coordinate m.y m.ry (0.5 * m.y / (m.ry ^ ((m.ny : ℝ) / 2) - 1)) m.ny j)) ulist pred ?_ ?_
  · unfold GradedMesh.nodes GradedMesh.nodeWrites
    rw [e1, e2]
    exact fill_grid _ _ _
  · unfold GradedMesh.fixedlist
    rw [dofsOk_true hu hu0, e1, e2]
    rfl

/-- C54 for `AnnulusMesh::GenerateFixedlist`. -/
theorem C54_annulus (m : AnnulusMesh) (hr : 0 < m.nr) (ulist : List ℤ) (hu : ulist ≠ [])
    (hu0 : ∀ u ∈ ulist, 0 ≤ u) (pred : ℝ × ℝ → Bool) :
    ∃ nodes fixed, m.nodes = some nodes ∧ m.fixedlist ulist pred = some fixed ∧
      Selects nodes ulist pred fixed := by
  refine ⟨grid (m.nr + 1) m.nt fun i j => m.point i j, _, ?_, ?_, selects_grid _ _ _ ulist pred⟩
  · unfold AnnulusMesh.nodes
    rw [if_neg (by omega), fill_grid]
  · unfold AnnulusMesh.fixedlist
    rw [dofsOk_true hu hu0, if_neg (by simp; omega)]
    rfl

/-! ### Rings made of four parts -/

theorem ring_numbers (i nx ny : ℕ) :
    ((List.range ny).map fun j => 2 * (nx + ny) * i + j) ++
      ((List.range nx).map fun j => 2 * (nx + ny) * i + j + ny) ++
      ((List.range ny).map fun j => 2 * (nx + ny) * i + j + ny + nx) ++
      ((List.range nx).map fun j => 2 * (nx + ny) * i + j + 2 * ny + nx) =
    (List.range (2 * (nx + ny))).map fun j => 2 * (nx + ny) * i + j := by
  rw [show 2 * (nx + ny) = ny + nx + ny + nx by ring, List.range_add, List.range_add, List.range_add,
    List.map_append, List.map_append, List.map_append, List.map_map, List.map_map, List.map_map]
  congr 1
  · congr 1
    · congr 1
      exact List.map_congr_left fun j _ => by simp only [Function.comp]; omega
    · exact List.map_congr_left fun j _ => by simp only [Function.comp]; omega
  · exact List.map_congr_left fun j _ => by simp only [Function.comp]; omega

theorem rings_numbers (rows nx ny : ℕ) :
    ((List.range rows).flatMap fun i =>
      ((List.range ny).map fun j => 2 * (nx + ny) * i + j) ++
      ((List.range nx).map fun j => 2 * (nx + ny) * i + j + ny) ++
      ((List.range ny).map fun j => 2 * (nx + ny) * i + j + ny + nx) ++
      ((List.range nx).map fun j => 2 * (nx + ny) * i + j + 2 * ny + nx)) =
    List.range (2 * (nx + ny) * rows) := by
  simp only [ring_numbers]
  rw [mul_comm (2 * (nx + ny)) rows, ← grid_numbers rows]
  rfl

/-- C54 for `SquareCircleAnnulusMesh::GenerateFixedlist`. -/
theorem C54_squareCircle (m : SquareCircleMesh) (hr : 0 < m.nr) (hp : 0 ≤ m.p) (ulist : List ℤ)
    (hu : ulist ≠ []) (hu0 : ∀ u ∈ ulist, 0 ≤ u) (pred : ℝ × ℝ → Bool) :
    ∃ nodes fixed, m.nodes = some nodes ∧ m.fixedlist ulist pred = some fixed ∧
      Selects nodes ulist pred fixed := by
  refine selects_intro (n := m.nxy * (m.nr + 1)) ((List.range (m.nr + 1)).flatMap fun i =>
      ((List.range m.ny).map fun j => (m.nxy * i + j, m.right i j)) ++
      ((List.range m.nx).map fun j => (m.nxy * i + j + m.ny, m.top i j)) ++
      ((List.range m.ny).map fun j => (m.nxy * i + j + m.ny + m.nx, m.left i j)) ++
      ((List.range m.nx).map fun j => (m.nxy * i + j + 2 * m.ny + m.nx, m.bottom i j))) ?_ ulist pred ?_ ?_
  · simp only [List.map_flatMap, List.map_append, List.map_map]
    exact rings_numbers (m.nr + 1) m.nx m.ny
  · unfold SquareCircleMesh.nodes
    rw [if_neg (by rw [not_or]; exact ⟨by omega, by linarith⟩)]
    apply fill_seq
    simp only [List.map_flatMap, List.map_append, List.map_map]
    exact rings_numbers (m.nr + 1) m.nx m.ny
  · unfold SquareCircleMesh.fixedlist
    rw [dofsOk_true hu hu0, if_neg (by
      rw [not_or, not_or]; exact ⟨by simp, by omega, by linarith⟩)]

/-! ### SquareAnnulusMesh: the fixed list tests the mirrored ring -/

theorem ring_parts {α : Type} (g : ℕ → α) (nx ny : ℕ) :
    ((List.range ny).map fun j => g j) ++ ((List.range nx).map fun j => g (j + ny)) ++
      ((List.range ny).map fun j => g (j + ny + nx)) ++ ((List.range nx).map fun j => g (j + 2 * ny + nx)) =
    (List.range (2 * (nx + ny))).map g := by
  rw [show 2 * (nx + ny) = ny + nx + ny + nx by ring, List.range_add, List.range_add, List.range_add,
    List.map_append, List.map_append, List.map_append, List.map_map, List.map_map, List.map_map]
  congr 1
  · congr 1
    · congr 1
      exact List.map_congr_left fun j _ => by simp only [Function.comp]; congr 1; omega
    · exact List.map_congr_left fun j _ => by simp only [Function.comp]; congr 1; omega
  · exact List.map_congr_left fun j _ => by simp only [Function.comp]; congr 1; omega

theorem fill_rows {α : Type} {m n : ℕ} (f : ℕ → ℕ → α) {ws : List (ℕ × α)}
    (h : ∀ w ∈ ws, ∃ i < m, ∃ j < n, w = (n * i + j, f i j))
    (hall : ∀ i < m, ∀ j < n, ∃ w ∈ ws, w.1 = n * i + j) : fill (m * n) ws = some (grid m n f) := by
  have hdm : ∀ i, ∀ j < n, (n * i + j) / n = i ∧ (n * i + j) % n = j := by
    intro i j hj
    rw [Nat.mul_add_div (by omega), Nat.div_eq_of_lt hj, Nat.mul_add_mod, Nat.mod_eq_of_lt hj]
    exact ⟨rfl, rfl⟩
  rw [fill_eq (fun k => f (k / n) (k % n))]
  · rw [← grid_numbers, map_grid]
    unfold grid
    congr 1
    refine List.flatMap_congr fun i _ => List.map_congr_left fun j hj => ?_
    obtain ⟨e1, e2⟩ := hdm i j (List.mem_range.1 hj)
    show f ((n * i + j) / n) ((n * i + j) % n) = f i j
    rw [e1, e2]
  · intro w hw
    obtain ⟨i, hi, j, hj, rfl⟩ := h w hw
    obtain ⟨e1, e2⟩ := hdm i j hj
    exact ⟨row_lt hi hj, by rw [e1, e2]⟩
  · intro k hk
    obtain ⟨i, hi, j, hj, rfl⟩ := exists_row hk
    exact hall i hi j hj

section
variable {K : Type} [Field K]

/-- The point `j` of the ring with parameter `t` (0 inside, 1 outside). -/
def saPoint (m : SquareAnnulusMesh K) (t : K) (j : ℕ) : K × K :=
  if j < m.ny then
    (t * 0.5 * m.a + (1 - t) * 0.5 * m.c,
      t * m.b * ((j : K) / (m.ny : K) - 0.5) + (1 - t) * m.d * ((j : K) / (m.ny : K) - 0.5))
  else if j < m.ny + m.nx then
    (t * m.a * (0.5 - ((j - m.ny : ℕ) : K) / (m.nx : K)) + (1 - t) * m.c * (0.5 - ((j - m.ny : ℕ) : K) / (m.nx : K)),
      t * 0.5 * m.b + (1 - t) * 0.5 * m.d)
  else if j < 2 * m.ny + m.nx then
    (-t * 0.5 * m.a - (1 - t) * 0.5 * m.c,
      t * m.b * (0.5 - ((j - m.ny - m.nx : ℕ) : K) / (m.ny : K))
        + (1 - t) * m.d * (0.5 - ((j - m.ny - m.nx : ℕ) : K) / (m.ny : K)))
  else
    (t * m.a * (((j - 2 * m.ny - m.nx : ℕ) : K) / (m.nx : K) - 0.5)
        + (1 - t) * m.c * (((j - 2 * m.ny - m.nx : ℕ) : K) / (m.nx : K) - 0.5),
      -t * 0.5 * m.b - (1 - t) * 0.5 * m.d)

theorem saPoint_right (m : SquareAnnulusMesh K) (t : K) {j : ℕ} (h : j < m.ny) :
    saPoint m t j = (t * 0.5 * m.a + (1 - t) * 0.5 * m.c,
      t * m.b * ((j : K) / (m.ny : K) - 0.5) + (1 - t) * m.d * ((j : K) / (m.ny : K) - 0.5)) := by
  unfold saPoint; rw [if_pos h]

theorem saPoint_top (m : SquareAnnulusMesh K) (t : K) {j : ℕ} (h : j < m.nx) :
    saPoint m t (j + m.ny) =
      (t * m.a * (0.5 - (j : K) / (m.nx : K)) + (1 - t) * m.c * (0.5 - (j : K) / (m.nx : K)),
        t * 0.5 * m.b + (1 - t) * 0.5 * m.d) := by
  unfold saPoint; rw [if_neg (by omega), if_pos (by omega), Nat.add_sub_cancel]

theorem saPoint_left (m : SquareAnnulusMesh K) (t : K) {j : ℕ} (h : j < m.ny) :
    saPoint m t (j + m.ny + m.nx) =
      (-t * 0.5 * m.a - (1 - t) * 0.5 * m.c,
        t * m.b * (0.5 - (j : K) / (m.ny : K)) + (1 - t) * m.d * (0.5 - (j : K) / (m.ny : K))) := by
  unfold saPoint
  rw [if_neg (by omega), if_neg (by omega), if_pos (by omega), show j + m.ny + m.nx - m.ny - m.nx = j by omega]

theorem saPoint_bottom (m : SquareAnnulusMesh K) (t : K) {j : ℕ} (h : j < m.nx) :
    saPoint m t (j + 2 * m.ny + m.nx) =
      (t * m.a * ((j : K) / (m.nx : K) - 0.5) + (1 - t) * m.c * ((j : K) / (m.nx : K) - 0.5),
        -t * 0.5 * m.b - (1 - t) * 0.5 * m.d) := by
  unfold saPoint
  rw [if_neg (by omega), if_neg (by omega), if_neg (by omega),
    show j + 2 * m.ny + m.nx - 2 * m.ny - m.nx = j by omega]

theorem saNodes_eq (m : SquareAnnulusMesh K) (ht : 0 < m.nt) :
    m.nodes = some (grid (m.nt + 1) m.nxy fun i j => saPoint m ((i : K) / (m.nt : K)) j) := by
  unfold SquareAnnulusMesh.nodes
  rw [if_neg (by omega), mul_comm]
  apply fill_rows
  · intro w hw
    simp only [SquareAnnulusMesh.nodeWrites, List.mem_append, List.mem_flatMap, List.mem_range, List.mem_cons,
      List.not_mem_nil, or_false] at hw
    obtain ⟨i, hi, ⟨j, hj, rfl | rfl⟩ | ⟨j, hj, rfl | rfl⟩⟩ := hw
    · refine ⟨i, hi, j, by unfold SquareAnnulusMesh.nxy; omega, ?_⟩
      rw [saPoint_right m _ hj]
    · refine ⟨i, hi, j + m.ny + m.nx, by unfold SquareAnnulusMesh.nxy; omega, ?_⟩
      rw [saPoint_left m _ hj]
      congr 1
      omega
    · refine ⟨i, hi, j + m.ny, by unfold SquareAnnulusMesh.nxy; omega, ?_⟩
      rw [saPoint_top m _ hj]
      congr 1
      omega
    · refine ⟨i, hi, j + 2 * m.ny + m.nx, by unfold SquareAnnulusMesh.nxy; omega, ?_⟩
      rw [saPoint_bottom m _ hj]
      congr 1
      omega
  · intro i hi j hj
    simp only [SquareAnnulusMesh.nodeWrites, List.mem_append, List.mem_flatMap, List.mem_range, List.mem_cons,
      List.not_mem_nil, or_false]
    unfold SquareAnnulusMesh.nxy at hj
    by_cases h1 : j < m.ny
    · exact ⟨_, ⟨i, hi, Or.inl ⟨j, h1, Or.inl rfl⟩⟩, rfl⟩
    by_cases h2 : j < m.ny + m.nx
    · exact ⟨_, ⟨i, hi, Or.inr ⟨j - m.ny, by omega, Or.inl rfl⟩⟩, by simp only; omega⟩
    by_cases h3 : j < 2 * m.ny + m.nx
    · exact ⟨_, ⟨i, hi, Or.inl ⟨j - m.ny - m.nx, by omega, Or.inr rfl⟩⟩, by simp only; omega⟩
    · exact ⟨_, ⟨i, hi, Or.inr ⟨j - 2 * m.ny - m.nx, by omega, Or.inr rfl⟩⟩, by simp only; omega⟩

theorem saFixed_eq (m : SquareAnnulusMesh K) (ht : 0 < m.nt) {ulist : List ℤ} (hu : ulist ≠ [])
    (hu0 : ∀ u ∈ ulist, 0 ≤ u) (pred : K × K → Bool) :
    m.fixedlist ulist pred = some ((grid (m.nt + 1) m.nxy fun i j =>
      (m.nxy * i + j, saPoint m (1 - (i : K) / (m.nt : K)) j)).flatMap (fixedAt ulist pred)) := by
  unfold SquareAnnulusMesh.fixedlist
  rw [dofsOk_true hu hu0, if_neg (by simp; omega)]
  congr 2
  unfold grid
  refine List.flatMap_congr fun i _ => ?_
  have hp := ring_parts (fun j => (m.nxy * i + j, saPoint m (1 - (i : K) / (m.nt : K)) j)) m.nx m.ny
  rw [show m.nxy = 2 * (m.nx + m.ny) from rfl] at hp ⊢
  rw [← hp]
  show _ ++ _ ++ _ ++ _ = _
  congr 1
  · congr 1
    · congr 1
      · refine List.map_congr_left fun j hj => ?_
        rw [saPoint_right m _ (List.mem_range.1 hj), sub_sub_cancel]
      · refine List.map_congr_left fun j hj => ?_
        rw [saPoint_top m _ (List.mem_range.1 hj), sub_sub_cancel]
        congr 1
        simp only [Nat.add_assoc]
    · refine List.map_congr_left fun j hj => ?_
      rw [saPoint_left m _ (List.mem_range.1 hj), sub_sub_cancel]
      congr 1
      simp only [Nat.add_assoc]
  · refine List.map_congr_left fun j hj => ?_
    rw [saPoint_bottom m _ (List.mem_range.1 hj), sub_sub_cancel]
    congr 1
    simp only [Nat.add_assoc]

/-- C54 for `SquareAnnulusMesh`, as far as it goes: the list tests the predicate for node `j` of ring `i`
at the node `j` of ring `nt - i`.  What is missing is the right ring; see `C54_squareAnnulus_false`. -/
theorem C54_squareAnnulus_partial [CharZero K] (m : SquareAnnulusMesh K) (ht : 0 < m.nt) (ulist : List ℤ)
    (hu : ulist ≠ []) (hu0 : ∀ u ∈ ulist, 0 ≤ u) (pred : K × K → Bool) :
    ∃ nodes fixed, m.nodes = some nodes ∧ m.fixedlist ulist pred = some fixed ∧
      (∀ f ∈ fixed, f.2 = 0 ∧ f.1.1 < nodes.length) ∧
      ∀ i ≤ m.nt, ∀ j < m.nxy, ∀ u, (m.nxy * i + j, u) ∈ fixed.map Prod.fst ↔
        (∃ p, nodes[m.nxy * (m.nt - i) + j]? = some p ∧ pred p = true) ∧ u ∈ ulist := by
  have ht0 : (m.nt : K) ≠ 0 := Nat.cast_ne_zero.2 (by omega)
  refine ⟨_, _, saNodes_eq m ht, saFixed_eq m ht hu hu0 pred, ?_, ?_⟩
  · intro f hf
    obtain ⟨w, hw, hfw⟩ := List.mem_flatMap.1 hf
    obtain ⟨-, u, -, rfl⟩ := mem_fixedAt.1 hfw
    obtain ⟨i, hi, j, hj, rfl⟩ := mem_grid.1 hw
    exact ⟨rfl, by rw [length_grid]; exact row_lt hi hj⟩
  · intro i hi j hj u
    have hs := selects_grid (m.nt + 1) m.nxy (fun i j => saPoint m (1 - (i : K) / (m.nt : K)) j) ulist pred
    rw [hs.2.1, getElem?_grid _ (by omega) hj, getElem?_grid _ (by omega) hj]
    rw [show ((m.nt - i : ℕ) : K) / (m.nt : K) = 1 - (i : K) / (m.nt : K) by
      rw [Nat.cast_sub hi, sub_div, div_self ht0]]

end

/-- A mesh of a ring between the squares of side 1 and 2. -/
def exRing : SquareAnnulusMesh ℚ := ⟨2, 2, 1, 1, 1, 1, 1⟩

/-- C54 fails for `SquareAnnulusMesh`: asked for the nodes on the line `x = 1/2`, which are on the inner
square, the fixed list names nodes of the outer square instead. -/
theorem C54_squareAnnulus_false :
    ¬ ∀ (m : SquareAnnulusMesh ℚ) (ulist : List ℤ) (pred : ℚ × ℚ → Bool), 0 < m.nx → 0 < m.ny → 0 < m.nt →
      ulist ≠ [] → (∀ u ∈ ulist, 0 ≤ u) →
      ∀ nodes fixed, m.nodes = some nodes → m.fixedlist ulist pred = some fixed →
        Selects nodes ulist pred fixed := by
  intro h
  obtain ⟨nodes, fixed, h1, h2, -, h3⟩ := C54_squareAnnulus_partial exRing (by decide) [0] (by simp) (by simp)
    (fun p => decide (p.1 = 1 / 2))
  have hs := h exRing [0] (fun p => decide (p.1 = 1 / 2)) (by decide) (by decide) (by decide) (by simp)
    (by simp) nodes fixed h1 h2
  have e1 : exRing.nodes = some [(1 / 2, -1 / 2), (1 / 2, 1 / 2), (-1 / 2, 1 / 2), (-1 / 2, -1 / 2),
      (1, -1), (1, 1), (-1, 1), (-1, -1)] := by decide +kernel
  rw [e1] at h1
  cases h1
  have a := (hs.2.1 0 0).2 ⟨⟨(1 / 2, -1 / 2), rfl, by decide +kernel⟩, by simp⟩
  obtain ⟨⟨p, hp, hpp⟩, -⟩ := (h3 0 (by decide) 0 (by decide) 0).1 a
  have hp' : p = (1, -1) := by
    have : (some (1, -1) : Option (ℚ × ℚ)) = some p := hp
    exact (Option.some.inj this).symm
  rw [hp'] at hpp
  exact absurd hpp (by decide +kernel)

/-! ### SquareAnnulusMesh2 -/

theorem counted_fst {α : Type} (l : List α) : (HoleMesh.counted l).map Prod.fst = List.range l.length := by
  unfold HoleMesh.counted
  rw [List.map_map, List.range_eq_range']
  exact List.zipIdx_map_snd _ _

theorem counted_snd {α : Type} (l : List α) : (HoleMesh.counted l).map Prod.snd = l := by
  unfold HoleMesh.counted
  rw [List.map_map]
  exact List.zipIdx_map_fst _ _

section
variable {K : Type} [Field K]

/-- What the constructor guarantees. -/
theorem construct_some {a b : K} {nx ny nv nw : ℕ} {m : HoleMesh K}
    (h : HoleMesh.construct a b nx ny nv nw = some m) :
    m.a = a ∧ m.b = b ∧ m.nx = nx ∧ m.ny = ny ∧ m.nv = nv ∧ m.nw = nw ∧
      m.nx = 2 * m.nxv + m.nv ∧ m.ny = 2 * m.nyw + m.nw := by
  unfold HoleMesh.construct at h
  split_ifs at h with hc
  cases h
  refine ⟨rfl, rfl, rfl, rfl, rfl, rfl, ?_, ?_⟩ <;> simp only <;> omega

theorem points_length (m : HoleMesh K) :
    m.points.length = 2 * ((m.nxv + 1) * (m.ny + 1)) + (m.nv - 1) * (2 * (m.nyw + 1)) := by
  unfold HoleMesh.points
  rw [List.length_append, List.length_append, length_grid, length_grid, List.length_flatMap]
  simp
  ring

theorem holeNodes_eq {a b : K} {nx ny nv nw : ℕ} {m : HoleMesh K}
    (h : HoleMesh.construct a b nx ny nv nw = some m) (hv : 0 < nv) (hny : 0 < ny) :
    m.nodes = some m.points := by
  obtain ⟨-, -, h1, h2, h3, h4, h5, h6⟩ := construct_some h
  unfold HoleMesh.nodes HoleMesh.sized
  have hsz : ((m.nx : ℤ) + 1) * (m.ny + 1) - (m.nv - 1) * (m.nw - 1) = (m.points.length : ℤ) := by
    rw [points_length]
    obtain ⟨v, hv'⟩ : ∃ v, m.nv = v + 1 := ⟨m.nv - 1, by omega⟩
    rw [h5, hv', Nat.add_sub_cancel, h6]
    push_cast
    ring
  rw [if_neg (by omega), hsz, if_neg (by omega), Int.toNat_natCast, fill_seq (counted_fst _), counted_snd]

/-- C54 for `SquareAnnulusMesh2::GenerateFixedlist`. -/
theorem C54_hole {a b : K} {nx ny nv nw : ℕ} {m : HoleMesh K}
    (h : HoleMesh.construct a b nx ny nv nw = some m) (hv : 0 < nv) (hny : 0 < ny) (ulist : List ℤ)
    (hu : ulist ≠ []) (hu0 : ∀ u ∈ ulist, 0 ≤ u) (pred : K × K → Bool) :
    ∃ nodes fixed, m.nodes = some nodes ∧ m.fixedlist ulist pred = some fixed ∧
      Selects nodes ulist pred fixed := by
  obtain ⟨-, -, h1, h2, h3, h4, h5, h6⟩ := construct_some h
  refine selects_intro (HoleMesh.counted m.points) (counted_fst _) ulist pred ?_ ?_
  · rw [holeNodes_eq h hv hny, counted_snd]
  · unfold HoleMesh.fixedlist
    rw [dofsOk_true hu hu0, if_neg (by simp; omega)]
    rfl

end

/-! ### Concrete cases -/

example : ∃ nodes fixed, (⟨4, 3, 2, 3⟩ : SquareMesh ℚ).nodes = some nodes ∧
    (⟨4, 3, 2, 3⟩ : SquareMesh ℚ).fixedlist [0, 1] (fun p => decide (p.1 < 1)) = some fixed ∧
      Selects nodes [0, 1] (fun p => decide (p.1 < 1)) fixed :=
  C54_square _ (by norm_num) (by norm_num) _ (by simp) (by simp) _

example : ∃ nodes fixed, (⟨4, 3, 2, 3⟩ : SquareMesh ℚ).nodes2 = some nodes ∧
    (⟨4, 3, 2, 3⟩ : SquareMesh ℚ).fixedlist2 [0, 1] (fun p => decide (p.1 < 1)) = some fixed ∧
      Selects nodes [0, 1] (fun p => decide (p.1 < 1)) fixed :=
  C54_square2 _ (by norm_num) (by norm_num) _ (by simp) (by simp) _

example (pred : ℚ × ℚ → Bool) : ∃ m nodes fixed, HoleMesh.construct (4 : ℚ) 3 6 5 2 1 = some m ∧
    m.nodes = some nodes ∧ m.fixedlist [0, 2] pred = some fixed ∧ Selects nodes [0, 2] pred fixed := by
  obtain ⟨nodes, fixed, h⟩ := C54_hole (a := (4 : ℚ)) (b := 3) (nx := 6) (ny := 5) (nv := 2) (nw := 1)
    (m := ⟨4, 3, 6, 5, 2, 1, 2, 2⟩) rfl (by norm_num) (by norm_num) [0, 2] (by simp) (by simp) pred
  exact ⟨_, nodes, fixed, rfl, h⟩

example (pred : ℝ × ℝ → Bool) : ∃ nodes fixed, (⟨1, 2, 2, 8⟩ : AnnulusMesh).nodes = some nodes ∧
    (⟨1, 2, 2, 8⟩ : AnnulusMesh).fixedlist [0] pred = some fixed ∧ Selects nodes [0] pred fixed :=
  C54_annulus _ (by norm_num) _ (by simp) (by simp) _

example (pred : ℝ × ℝ → Bool) : ∃ nodes fixed, (⟨4, 4, 1, 2, 2, 3, 2⟩ : SquareCircleMesh).nodes = some nodes ∧
    (⟨4, 4, 1, 2, 2, 3, 2⟩ : SquareCircleMesh).fixedlist [0] pred = some fixed ∧ Selects nodes [0] pred fixed :=
  C54_squareCircle _ (by norm_num) (by norm_num) _ (by simp) (by simp) _

example (pred : ℝ × ℝ → Bool) : ∃ nodes fixed, (⟨4, 4, 2, 4, 2, 3⟩ : GradedMesh).nodes = some nodes ∧
    (⟨4, 4, 2, 4, 2, 3⟩ : GradedMesh).fixedlist [0] pred = some fixed ∧ Selects nodes [0] pred fixed :=
  C54_graded _ (by norm_num) (by norm_num) (by norm_num) (by norm_num) _ (by simp) (by simp) _

example (pred : ℚ × ℚ → Bool) : ∃ nodes fixed, (⟨4, 4, 2, 4, 2⟩ : GrandStructure ℚ).nodes = some nodes ∧
    (⟨4, 4, 2, 4, 2⟩ : GrandStructure ℚ).fixedlist [0] pred = some fixed ∧ Selects nodes [0] pred fixed :=
  C54_ground _ (by norm_num) (by norm_num) _ (by simp) (by simp) _

/-! ### C91: selected elements and edges -/

theorem allSatisfy_eq {K : Type} (pred : K × K → Bool) (nodes : List (K × K)) (ks : List ℕ)
    (h : ∀ k ∈ ks, k < nodes.length) :
    ∃ b, allSatisfy pred nodes ks = some b ∧
      (b = true ↔ ∀ k ∈ ks, ∃ p, nodes[k]? = some p ∧ pred p = true) := by
  induction ks with
  | nil => exact ⟨true, rfl, by simp⟩
  | cons k ks ih =>
    obtain ⟨b, hb, hb'⟩ := ih fun k' hk' => h k' (List.mem_cons_of_mem _ hk')
    have hk := h k List.mem_cons_self
    have e : nodes[k]? = some nodes[k] := List.getElem?_eq_getElem hk
    by_cases hp : pred nodes[k] = true
    · refine ⟨b, ?_, ?_⟩
      · unfold allSatisfy
        rw [e]
        show (if pred nodes[k] = true then allSatisfy pred nodes ks else _) = _
        rw [if_pos hp, hb]
      · rw [hb', List.forall_mem_cons]
        constructor
        · intro h'; exact ⟨⟨_, e, hp⟩, h'⟩
        · intro h'; exact h'.2
    · refine ⟨false, ?_, ?_⟩
      · unfold allSatisfy
        rw [e]
        show (if pred nodes[k] = true then allSatisfy pred nodes ks else _) = _
        rw [if_neg hp]
        rfl
      · simp only [Bool.false_eq_true, false_iff]
        intro h'
        obtain ⟨p, h1, h2⟩ := h' k List.mem_cons_self
        rw [e] at h1
        cases h1
        exact hp h2

theorem selectIds_eq {K : Type} (pred : K × K → Bool) (nodes : List (K × K)) (cands : List (ℕ × List ℕ))
    (h : ∀ c ∈ cands, ∀ k ∈ c.2, k < nodes.length) :
    ∃ ids, selectIds pred nodes cands = some ids ∧
      (∀ e, e ∈ ids ↔ ∃ c ∈ cands, c.1 = e ∧ ∀ k ∈ c.2, ∃ p, nodes[k]? = some p ∧ pred p = true) ∧
      ids.Sublist (cands.map Prod.fst) := by
  induction cands with
  | nil => exact ⟨[], rfl, by simp, List.Sublist.refl _⟩
  | cons c cs ih =>
    obtain ⟨ids, h1, h2, h3⟩ := ih fun c' hc' => h c' (List.mem_cons_of_mem _ hc')
    obtain ⟨b, hb, hb'⟩ := allSatisfy_eq pred nodes c.2 (h c List.mem_cons_self)
    refine ⟨if b then c.1 :: ids else ids, ?_, ?_, ?_⟩
    · unfold selectIds
      rw [hb, h1]
      rfl
    · intro e
      cases b with
      | true =>
        have hall := hb'.1 rfl
        simp only [if_true, List.mem_cons, h2, exists_eq_or_imp]
        constructor
        · rintro (rfl | hh)
          · exact Or.inl ⟨rfl, hall⟩
          · exact Or.inr hh
        · rintro (⟨rfl, -⟩ | hh)
          · exact Or.inl rfl
          · exact Or.inr hh
      | false =>
        have hno : ¬ ∀ k ∈ c.2, ∃ p, nodes[k]? = some p ∧ pred p = true := fun hh => by
          have := hb'.2 hh; cases this
        simp only [Bool.false_eq_true, if_false, h2, List.mem_cons, exists_eq_or_imp]
        constructor
        · exact Or.inr
        · rintro (⟨-, hh⟩ | hh)
          · exact absurd hh hno
          · exact hh
    · cases b
      · exact h3.cons _
      · exact h3.cons_cons _

section
variable {K : Type} [Field K]

/-- C91: `GenerateElementIdsSelected` returns the numbers of exactly those elements all of whose corners
satisfy the predicate, each once. -/
theorem C91_elements (m : SquareMesh K) (hx : 0 < m.nx) (hy : 0 < m.ny) (pred : K × K → Bool) :
    ∃ nodes elements ids, m.nodes = some nodes ∧ SquareMesh.elements m.nx m.ny = some elements ∧
      m.elementIds pred = some ids ∧ ids.Nodup ∧
      ∀ k, k ∈ ids ↔ ∃ e, elements[k]? = some e ∧ ∀ n ∈ e, ∃ p, nodes[n]? = some p ∧ pred p = true := by
  have hnum : (grid m.nx m.ny fun i j => (m.ny * i + j, quad (squareNode m.ny) (· + 1) (i, j))).map Prod.fst
      = List.range (m.nx * m.ny) := by rw [map_grid]; exact grid_numbers _ _
  obtain ⟨ids, h1, h2, h3⟩ := selectIds_eq pred
    (grid (m.nx + 1) (m.ny + 1) fun i j => (m.x * ((i : K) / (m.nx : K)), m.y * ((j : K) / (m.ny : K))))
    (grid m.nx m.ny fun i j => (m.ny * i + j, quad (squareNode m.ny) (· + 1) (i, j))) (by
      intro c hc k hk
      obtain ⟨i, hi, j, hj, rfl⟩ := mem_grid.1 hc
      rw [length_grid]
      simp only [quad, List.mem_cons, List.not_mem_nil, or_false] at hk
      rcases hk with rfl | rfl | rfl | rfl <;> exact row_lt (by omega) (by omega))
  refine ⟨_, _, ids, squareNodes_eq m hx hy, squareElements_eq _ _, ?_, ?_, ?_⟩
  · unfold SquareMesh.elementIds
    rw [squareNodes_eq m hx hy]
    exact h1
  · rw [hnum] at h3
    exact h3.nodup List.nodup_range
  · intro k
    rw [h2]
    have e : (grid m.nx m.ny Prod.mk).map (quad (squareNode m.ny) (· + 1)) =
        (grid m.nx m.ny fun i j => (m.ny * i + j, quad (squareNode m.ny) (· + 1) (i, j))).map Prod.snd := by
      rw [map_grid, map_grid]
    constructor
    · rintro ⟨c, hc, rfl, hall⟩
      exact ⟨c.2, by rw [e]; exact (mem_seq hnum _ _).1 hc, hall⟩
    · rintro ⟨el, hel, hall⟩
      rw [e] at hel
      exact ⟨(k, el), (mem_seq hnum _ _).2 hel, rfl, hall⟩

/-- C91: `GenerateEdgeIdsSelected` returns the numbers of exactly those boundary edges both of whose ends
satisfy the predicate, each once. -/
theorem C91_edges (m : SquareMesh K) (hx : 0 < m.nx) (hy : 0 < m.ny) (pred : K × K → Bool) :
    ∃ nodes edges ids, m.nodes = some nodes ∧ SquareMesh.edges m.nx m.ny = some edges ∧
      m.edgeIds pred = some ids ∧ ids.Nodup ∧
      ∀ k, k ∈ ids ↔ ∃ e, edges[k]? = some e ∧ ∀ n ∈ e, ∃ p, nodes[n]? = some p ∧ pred p = true := by
  have hw : ∀ w ∈ SquareMesh.edgeWrites m.nx m.ny, w.1 < 2 * (m.nx + m.ny) ∧ w.2 = squareEdge m.nx m.ny w.1 := by
    intro w hw
    simp only [SquareMesh.edgeWrites, List.mem_append, List.mem_flatMap, List.mem_range, List.mem_cons,
      List.not_mem_nil, or_false] at hw
    rcases hw with ⟨i, hi, rfl | rfl⟩ | ⟨j, hj, rfl | rfl⟩
    · refine ⟨by simp; omega, ?_⟩
      simp only [squareEdge, rimEdge]
      rw [if_pos hi]; rfl
    · refine ⟨by simp; omega, ?_⟩
      simp only [squareEdge, rimEdge]
      rw [if_neg (by omega), if_neg (by omega), if_pos (by omega)]
      rw [show 2 * m.nx + m.ny - (2 * m.nx + m.ny - i - 1) = i + 1 by omega]
      rfl
    · refine ⟨by simp; omega, ?_⟩
      simp only [squareEdge, rimEdge]
      rw [if_neg (by omega), if_pos (by omega), show j + m.nx - m.nx = j by omega]
      rfl
    · refine ⟨by simp; omega, ?_⟩
      simp only [squareEdge, rimEdge]
      rw [if_neg (by omega), if_neg (by omega), if_neg (by omega),
        show 2 * (m.nx + m.ny) - (2 * (m.nx + m.ny) - j - 1) = j + 1 by omega]
      simp [squareNode]
  have hall : ∀ k < 2 * (m.nx + m.ny), ∃ w ∈ SquareMesh.edgeWrites m.nx m.ny, w.1 = k := by
    intro k hk
    simp only [SquareMesh.edgeWrites, List.mem_append, List.mem_flatMap, List.mem_range, List.mem_cons,
      List.not_mem_nil, or_false]
    by_cases h1 : k < m.nx
    · exact ⟨_, Or.inl ⟨k, h1, Or.inl rfl⟩, rfl⟩
    by_cases h2 : k < m.nx + m.ny
    · exact ⟨_, Or.inr ⟨k - m.nx, by omega, Or.inl rfl⟩, by simp; omega⟩
    by_cases h3 : k < 2 * m.nx + m.ny
    · exact ⟨_, Or.inl ⟨2 * m.nx + m.ny - k - 1, by omega, Or.inr rfl⟩, by simp; omega⟩
    · exact ⟨_, Or.inr ⟨2 * (m.nx + m.ny) - k - 1, by omega, Or.inr rfl⟩, by simp; omega⟩
  have hnd : ((SquareMesh.edgeWrites m.nx m.ny).map Prod.fst).Nodup := by
    have hlen : (SquareMesh.edgeWrites m.nx m.ny).length = 2 * (m.nx + m.ny) := by
      simp [SquareMesh.edgeWrites, List.length_flatMap]
      ring
    have hsub : List.range (2 * (m.nx + m.ny)) ⊆ (SquareMesh.edgeWrites m.nx m.ny).map Prod.fst := by
      intro k hk
      obtain ⟨w, h1, h2⟩ := hall k (List.mem_range.1 hk)
      exact List.mem_map.2 ⟨w, h1, h2⟩
    have hperm : (List.range (2 * (m.nx + m.ny))).Perm ((SquareMesh.edgeWrites m.nx m.ny).map Prod.fst) := by
      refine (List.subperm_of_subset List.nodup_range hsub).perm_of_length_le ?_
      rw [List.length_map, hlen, List.length_range]
    exact hperm.nodup_iff.1 List.nodup_range
  obtain ⟨ids, h1, h2, h3⟩ := selectIds_eq pred
    (grid (m.nx + 1) (m.ny + 1) fun i j => (m.x * ((i : K) / (m.nx : K)), m.y * ((j : K) / (m.ny : K))))
    (SquareMesh.edgeWrites m.nx m.ny) (by
      intro c hc k hk
      rw [length_grid]
      obtain ⟨h4, h5⟩ := hw c hc
      rw [h5] at hk
      unfold squareEdge rimEdge at hk
      split_ifs at hk <;> simp only [List.mem_cons, List.not_mem_nil, or_false] at hk <;>
        rcases hk with rfl | rfl <;> exact row_lt (by omega) (by omega))
  refine ⟨_, _, ids, squareNodes_eq m hx hy, squareEdges_eq _ _, ?_, h3.nodup hnd, ?_⟩
  · unfold SquareMesh.edgeIds
    rw [squareNodes_eq m hx hy]
    exact h1
  · intro k
    rw [h2]
    constructor
    · rintro ⟨c, hc, rfl, hc2⟩
      obtain ⟨h4, h5⟩ := hw c hc
      refine ⟨c.2, ?_, hc2⟩
      rw [List.getElem?_map, List.getElem?_range h4, h5]
      rfl
    · rintro ⟨e, he, hc2⟩
      have hk : k < 2 * (m.nx + m.ny) := by
        have := (List.getElem?_eq_some_iff.1 he).1
        simpa using this
      obtain ⟨w, hw1, hw2⟩ := hall k hk
      refine ⟨w, hw1, hw2, ?_⟩
      rw [List.getElem?_map, List.getElem?_range hk] at he
      rw [(hw w hw1).2, hw2]
      rw [← Option.some.inj he] at hc2
      exact hc2

end

example : ∃ nodes elements ids, (⟨4, 3, 4, 3⟩ : SquareMesh ℚ).nodes = some nodes ∧
    SquareMesh.elements 4 3 = some elements ∧
    (⟨4, 3, 4, 3⟩ : SquareMesh ℚ).elementIds (fun p => decide (p.1 < 5 / 2)) = some ids ∧ ids.Nodup ∧
    ∀ k, k ∈ ids ↔ ∃ e, elements[k]? = some e ∧
      ∀ n ∈ e, ∃ p, nodes[n]? = some p ∧ (decide (p.1 < 5 / 2)) = true :=
  C91_elements _ (by norm_num) (by norm_num) _

example : (⟨4, 3, 4, 3⟩ : SquareMesh ℚ).edgeIds (fun p => decide (p.1 < 5 / 2)) = some [0, 10, 1, 9, 13, 12, 11] := by
  decide +kernel

end Pansfem
