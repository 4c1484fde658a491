/-
Meshes of quadrilaterals with four nodes: when supports hold them.
-/
import Verif.Spec.ProgramSquare
import Verif.Lemmas.SquareHeld
import Verif.Props.C109_Solvable

noncomputable section

namespace Pansfem

/-- Nodes of an element lie at different places. -/
def DistinctNodes (x : List (Vec ℝ)) (elements : List (List ℕ)) : Prop :=
  ∀ e ∈ elements, ∀ m ∈ e, ∀ m' ∈ e, m ≠ m' → ¬ (coord x m 0 = coord x m' 0 ∧ coord x m 1 = coord x m' 1)

/-- Connected elements with supports against rigid motions are held. -/
theorem connected_held {x : List (Vec ℝ)} {elements : List (List ℕ)} {bc : List ((ℕ × ℕ) × ℝ)}
    (hd : DistinctNodes x elements) (hconn : SideConnected elements) (hsup : Supported x elements (bc.map Prod.fst))
    (huse : ∀ m < x.length, ∀ j < 2, (∃ e ∈ elements, m ∈ e) ∨ (m, j) ∈ bc.map Prod.fst) :
    RigidlyHeld x elements bc := by
  intro v hv hrig
  have hmesh : ∀ e ∈ elements, ∀ m ∈ e, ∀ j < 2, v m j = 0 := by
    intro e he
    obtain ⟨p, r, w, hr⟩ := hrig e he
    have hspread : ∀ f, Relation.ReflTransGen (fun a b => b ∈ elements ∧ ShareSide a b) e f →
        f ∈ elements ∧ ∀ m ∈ f, ∀ j < 2, v m j = rigidAt x p r w m j := by
      intro f hf
      induction hf with
      | refl => exact ⟨he, hr⟩
      | @tail g f _ hgf ih =>
        obtain ⟨hg, ihr⟩ := ih
        obtain ⟨hfm, m, m', hne, g1, g2, f1, f2⟩ := hgf
        obtain ⟨p', r', w', hr'⟩ := hrig f hfm
        obtain ⟨rfl, rfl, rfl⟩ := rigid_unique (hd f hfm m f1 m' f2 hne)
          (p := p) (q := r) (w := w) (p' := p') (q' := r') (w' := w') (by
            rintro n (rfl | rfl) j hj
            · rw [← ihr _ g1 j hj, ← hr' _ f1 j hj]
            · rw [← ihr _ g2 j hj, ← hr' _ f2 j hj])
        exact ⟨hfm, hr'⟩
    obtain ⟨rfl, rfl, rfl⟩ := hsup p r w (by
      rintro ⟨m, j⟩ hs ⟨f, hf, hm⟩ hj
      rw [← (hspread f (hconn e he f hf)).2 m hm j hj]
      exact hv m j fun hc => hc.2.2 hs)
    intro m hm j hj
    rw [hr m hm j hj]
    simp [rigidAt]
  funext m j
  by_cases hmj : m < x.length ∧ j < 2
  · rcases huse m hmj.1 j hmj.2 with ⟨e, he, hm⟩ | hf
    · exact hmesh e he m hm j hmj.2
    · exact hv m j fun hc => hc.2.2 hf
  · exact hv m j fun hc => hmj ⟨hc.1, hc.2.1⟩

variable (m : SquareMesh ℝ)

/-- The nodes of the linear mesh. -/
def squareNodes4 : List (ℝ × ℝ) :=
  grid (m.nx + 1) (m.ny + 1) fun i j => (m.x * ((i : ℝ) / (m.nx : ℝ)), m.y * ((j : ℝ) / (m.ny : ℝ)))

/-- The elements of the linear mesh. -/
def squareCells4 : List (List ℕ) := (grid m.nx m.ny Prod.mk).map (quad (squareNode m.ny) (· + 1))

theorem squareNodes4_at {i j : ℕ} (hi : i ≤ m.nx) (hj : j ≤ m.ny) : (squareNodes4 m)[squareNode m.ny i j]? =
    some (m.x * ((i : ℝ) / (m.nx : ℝ)), m.y * ((j : ℝ) / (m.ny : ℝ))) :=
  getElem?_grid _ (by omega) (by omega)

theorem square4_quads (hx : 0 < m.nx) (hy : 0 < m.ny) (h1 : 0 < m.x) (h2 : 0 < m.y) :
    Quads (asVectors (squareNodes4 m)) (squareCells4 m) := by
  obtain ⟨ns, es, e1, e2, hc⟩ := C52_ccw m hx hy h1 h2
  rw [squareNodes_eq m hx hy] at e1
  rw [squareElements_eq] at e2
  cases e1; cases e2
  exact convex_quads hc

/-- The mesh is held if its left nodes are fixed in both directions. -/
theorem square4_held (hy : 0 < m.ny) (h2 : 0 < m.y) {bc : List ((ℕ × ℕ) × ℝ)}
    (hb : ∀ j ≤ m.ny, ∀ d < 2, (squareNode m.ny 0 j, d) ∈ bc.map Prod.fst) :
    RigidlyHeld (asVectors (squareNodes4 m)) (squareCells4 m) bc := by
  intro v hv hrig
  have hyp : (0 : ℝ) < m.ny := Nat.cast_pos.2 hy
  have step : ∀ i < m.nx, ∀ j < m.ny, (∀ d < 2, v (squareNode m.ny i j) d = 0) →
      (∀ d < 2, v (squareNode m.ny i (j + 1)) d = 0) →
      ∀ n ∈ quad (squareNode m.ny) (· + 1) (i, j), ∀ d < 2, v n d = 0 := by
    intro i hi j hj z1 z2
    obtain ⟨a, b, w, hr⟩ := hrig _ (List.mem_map_of_mem (mem_grid.2 ⟨i, hi, j, hj, rfl⟩))
    obtain ⟨cx, cy⟩ := coord_asVectors (squareNodes4_at m (i := i) (j := j) (by omega) (by omega))
    obtain ⟨cx', cy'⟩ := coord_asVectors (squareNodes4_at m (i := i) (j := j + 1) (by omega) (by omega))
    have m1 : squareNode m.ny i j ∈ quad (squareNode m.ny) (· + 1) (i, j) := by simp [quad]
    have m2 : squareNode m.ny i (j + 1) ∈ quad (squareNode m.ny) (· + 1) (i, j) := by simp [quad]
    have e1 := hr _ m1 0 (by omega)
    have e2 := hr _ m2 0 (by omega)
    have e3 := hr _ m1 1 (by omega)
    rw [z1 0 (by omega), rigidAt, if_pos rfl, cy] at e1
    rw [z2 0 (by omega), rigidAt, if_pos rfl, cy'] at e2
    rw [z1 1 (by omega), rigidAt, if_neg one_ne_zero, cx] at e3
    have hw : w = 0 := by
      have : w * (m.y / m.ny) = 0 := by
        have e : m.y * (((j + 1 : ℕ) : ℝ) / m.ny) = m.y * ((j : ℝ) / m.ny) + m.y / m.ny := by push_cast; ring
        rw [e] at e2
        linear_combination e2 - e1
      exact (mul_eq_zero.1 this).resolve_right (div_pos h2 hyp).ne'
    subst hw
    intro n hn d hd
    rw [hr n hn d hd, rigidAt]
    split_ifs
    · linarith
    · linarith
  have cols : ∀ i ≤ m.nx, ∀ j ≤ m.ny, ∀ d < 2, v (squareNode m.ny i j) d = 0 := by
    intro i
    induction i with
    | zero => exact fun _ j hj d hd => hv _ _ fun h => h.2.2 (hb j hj d hd)
    | succ i ih =>
      intro hi j hj d hd
      by_cases c : j < m.ny
      · exact step i (by omega) j c (ih (by omega) j (by omega)) (ih (by omega) (j + 1) (by omega)) _
          (by simp [quad]) d hd
      · refine step i (by omega) (j - 1) (by omega) (ih (by omega) (j - 1) (by omega))
          (ih (by omega) (j - 1 + 1) (by omega)) _ ?_ d hd
        have : j - 1 + 1 = j := by omega
        simp [quad, this]
  funext n d
  by_cases hn : n < (m.nx + 1) * (m.ny + 1) ∧ d < 2
  · have hlt : n / (m.ny + 1) < m.nx + 1 := Nat.div_lt_of_lt_mul (by rw [mul_comm]; exact hn.1)
    have hmod := Nat.mod_lt n (show 0 < m.ny + 1 by omega)
    have e : squareNode m.ny (n / (m.ny + 1)) (n % (m.ny + 1)) = n := Nat.div_add_mod _ _
    have := cols (n / (m.ny + 1)) (by omega) (n % (m.ny + 1)) (by omega) d hn.2
    rwa [e] at this
  · refine hv n d fun h => hn ⟨?_, h.2.1⟩
    have := h.1
    rwa [asVectors, List.length_map, squareNodes4, length_grid] at this

end Pansfem
