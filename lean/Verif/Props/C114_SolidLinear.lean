/-
C114: the linear analysis of solids made of parallelepipeds succeeds on supported meshes.
-/
import Verif.Model.ProgramSolid
import Verif.Spec.ProgramSolid
import Verif.Props.C109_Solvable
import Verif.Props.C113_Solid

namespace Pansfem

open Matrix

/-! ### One parallelepiped -/

theorem brick_measure (o : Fin 3 → ℝ) (A : Matrix (Fin 3) (Fin 3) ℝ) (g : Fin IC.gauss8Cubic.N) :
    measure3 SF.cubic8 IC.gauss8Cubic (brick o A) g = A.det / 8 := by
  have hw : ∀ g : Fin 8, IC.gauss8Cubic.weights g = ![1, 1, 1] := fun g => by fin_cases g <;> rfl
  rw [measure3, brick_jac, hw g, Matrix.det_smul]
  simp
  ring

theorem brick_regular {o : Fin 3 → ℝ} {A : Matrix (Fin 3) (Fin 3) ℝ} (hA : A.det ≠ 0) :
    Regular SF.cubic8 IC.gauss8Cubic (brick o A) := by
  intro g
  rw [brick_jac, Matrix.det_smul]
  simpa using hA

/-- **C114**: on a parallelepiped of positive volume exactly the rigid motions need no forces. -/
theorem C114_kernel {o : Fin 3 → ℝ} {A : Matrix (Fin 3) (Fin 3) ℝ} (hA : 0 < A.det) {E V : ℝ} (hE : 0 < E)
    (h1 : -1 < V) (h2 : 2 * V < 1) {Ke : Matrix (Fin 8 × Fin 3) (Fin 8 × Fin 3) ℝ}
    (h : solidStiffness SF.cubic8 IC.gauss8Cubic (brick o A) E V = some Ke) (u : Fin 8 × Fin 3 → ℝ) :
    (Ke *ᵥ u = 0 ↔ ∃ a w, u = rigid3 (brick o A) a w) ∧ (u ⬝ᵥ (Ke *ᵥ u) = 0 ↔ ∃ a w, u = rigid3 (brick o A) a w) := by
  have hz : u ⬝ᵥ (Ke *ᵥ u) = 0 → ∃ a w, u = rigid3 (brick o A) a w := fun hu =>
    brick_strain_zero hA.ne' u fun g => solid_zero_energy (ic := IC.gauss8Cubic)
      (fun g => by rw [brick_measure]; linarith) hE h1 h2 h hu g
  have hc : Complete (SF.cubic8 : SF ℝ 3 8) := complete_cubic8
  refine ⟨⟨fun hu => hz (by rw [hu, dotProduct_zero]), ?_⟩, hz, ?_⟩
  · rintro ⟨a, w, rfl⟩
    exact C33_solid hc h a w
  · rintro ⟨a, w, rfl⟩
    rw [C33_solid hc h a w, dotProduct_zero]

/-- A brick of size 2 x 1 x 1: lifting one corner needs energy. -/
example : ∃ Ke, solidStiffness SF.cubic8 IC.gauss8Cubic (brick 0 (Matrix.diagonal ![(2 : ℝ), 1, 1])) 210000 (3 / 10) = some Ke ∧
    Ke *ᵥ Pi.single (6, 2) 1 ≠ 0 := by
  have hd : 0 < (Matrix.diagonal ![(2 : ℝ), 1, 1]).det := by simp [Matrix.det_diagonal, Fin.prod_univ_succ]
  obtain ⟨Ke, hKe⟩ : ∃ Ke, solidStiffness SF.cubic8 IC.gauss8Cubic (brick 0 (Matrix.diagonal ![(2 : ℝ), 1, 1])) 210000
      (3 / 10) = some Ke :=
    ⟨_, solidStiffness_eq_some.2 ⟨_, solidC_eq_some.2 ⟨by norm_num, rfl⟩, brick_regular hd.ne', rfl⟩⟩
  refine ⟨Ke, hKe, fun h => ?_⟩
  obtain ⟨a, w, haw⟩ := (C114_kernel hd (by norm_num) (by norm_num) (by norm_num) hKe _).1.1 h
  have c0 := congrFun haw (0, 2)
  have c1 := congrFun haw (1, 2)
  have c3 := congrFun haw (3, 2)
  have c6 := congrFun haw (6, 2)
  have c4 := congrFun haw (4, 2)
  simp [rigid3, brick, unitCube, Pi.single_apply, Matrix.diagonal, Fin.sum_univ_succ] at c0 c1 c3 c6 c4
  linarith

/-! ### Meshes -/

section
variable {x : List (Vec ℝ)} {elements : List (List ℕ)} {bc q : List ((ℕ × ℕ) × ℝ)} {E V : ℝ}

theorem bricks_gather (hB : Bricks x elements) {e : List ℕ} (he : e ∈ elements) :
    ∃ o A, 0 < A.det ∧ gather x e 8 3 = some (brick o A) ∧ ∀ (i : Fin 8) (j : Fin 3),
      coord x (e[(i : ℕ)]?.getD 0) j = brick o A i j := by
  obtain ⟨h1, h2, o, A, h3, h4⟩ := hB e he
  obtain ⟨X, hX⟩ := Option.isSome_iff_exists.1 (gather_isSome h2 fun m hm (j : Fin 3) => h1 m hm j j.2)
  refine ⟨o, A, h3, ?_, h4⟩
  rw [hX]
  congr 1
  ext i j
  rw [← h4 i j, gather_coordsOf hX]
  rfl

theorem rigid_local {e : List ℕ} (he : e.length = 8) {o : Fin 3 → ℝ} {A : Matrix (Fin 3) (Fin 3) ℝ}
    (hx : ∀ (i : Fin 8) (j : Fin 3), coord x (e[(i : ℕ)]?.getD 0) j = brick o A i j) {v : ℕ → ℕ → ℝ}
    {a w : Fin 3 → ℝ} (h : localField [0, 1, 2] e v = rigid3 (brick o A) a w) :
    ∀ m ∈ e, ∀ j < 3, v m j = rigid3At x a w m j := by
  intro m hm j hj
  obtain ⟨i, hi, rfl⟩ := List.getElem_of_mem hm
  have hi8 : i < 8 := by omega
  have hg : e[i]?.getD 0 = e[i] := by simp [hi]
  have k0 := hx ⟨i, hi8⟩ 0
  have k1 := hx ⟨i, hi8⟩ 1
  have k2 := hx ⟨i, hi8⟩ 2
  have e0 := congrFun h (⟨i, hi8⟩, ⟨j, hj⟩)
  simp only [localField, rigid3, ← hx, hg] at e0
  rcases j with _ | _ | _ | j
  · exact e0
  · exact e0
  · exact e0
  · omega

theorem rigid3_unique {m m' m'' : ℕ} (hne : ¬ Collinear3 x m m' m'') {a w a' w' : Fin 3 → ℝ}
    (h : ∀ k ∈ [m, m', m''], ∀ j < 3, rigid3At x a w k j = rigid3At x a' w' k j) : a = a' ∧ w = w' := by
  obtain ⟨d, hd⟩ : ∃ d : Fin 3 → ℝ, ∀ i, d i = w i - w' i := ⟨_, fun _ => rfl⟩
  have at' : ∀ k ∈ [m, m', m''],
      a 0 - a' 0 + (d 1 * coord x k 2 - d 2 * coord x k 1) = 0 ∧
      a 1 - a' 1 + (d 2 * coord x k 0 - d 0 * coord x k 2) = 0 ∧
      a 2 - a' 2 + (d 0 * coord x k 1 - d 1 * coord x k 0) = 0 := by
    intro k hk
    have h0 := h k hk 0 (by norm_num)
    have h1 := h k hk 1 (by norm_num)
    have h2 := h k hk 2 (by norm_num)
    simp only [rigid3At] at h0 h1 h2
    rw [hd, hd, hd]
    exact ⟨by linear_combination h0, by linear_combination h1, by linear_combination h2⟩
  obtain ⟨p0, p1, p2⟩ := at' m (by simp)
  obtain ⟨q0, q1, q2⟩ := at' m' (by simp)
  obtain ⟨r0, r1, r2⟩ := at' m'' (by simp)
  have hu : ∀ i j : Fin 3, d i * (coord x m' j - coord x m j) = d j * (coord x m' i - coord x m i) := by
    intro i j
    fin_cases i <;> fin_cases j <;> simp <;> linarith
  have hv : ∀ i j : Fin 3, d i * (coord x m'' j - coord x m j) = d j * (coord x m'' i - coord x m i) := by
    intro i j
    fin_cases i <;> fin_cases j <;> simp <;> linarith
  have hz : ∀ l, d l = 0 := by
    by_contra hc
    push Not at hc
    obtain ⟨l, hl⟩ := hc
    refine hne fun i j => ?_
    refine mul_left_cancel₀ hl ?_
    linear_combination (coord x m'' j - coord x m j) * hu l i + (coord x m' l - coord x m l) * hv i j
      + (coord x m'' i - coord x m i) * hu j l
  have hww : w = w' := by
    funext l
    have := hz l
    rw [hd] at this
    linarith
  refine ⟨?_, hww⟩
  rw [hz, hz] at p0 p1 p2
  funext j
  fin_cases j <;> simp <;> linarith

/-- A field that is a rigid motion on every element and vanishes at the supports vanishes. -/
theorem bricks_zero (hconn : FaceConnected x elements) (hsup : Supported3 x elements (bc.map Prod.fst))
    (huse : ∀ m < x.length, ∀ j < 3, (∃ e ∈ elements, m ∈ e) ∨ (m, j) ∈ bc.map Prod.fst) {v : ℕ → ℕ → ℝ}
    (hv : ∀ m j, ¬ (m < x.length ∧ j < 3 ∧ (m, j) ∉ bc.map Prod.fst) → v m j = 0)
    (hr : ∀ e ∈ elements, ∃ a w, ∀ m ∈ e, ∀ j < 3, v m j = rigid3At x a w m j) : ∀ m j, v m j = 0 := by
  have hmesh : ∀ e ∈ elements, ∀ m ∈ e, ∀ j < 3, v m j = 0 := by
    intro e he
    obtain ⟨a, w, ha⟩ := hr e he
    have hspread : ∀ f, Relation.ReflTransGen (fun a b => b ∈ elements ∧ ShareFace x a b) e f →
        f ∈ elements ∧ ∀ m ∈ f, ∀ j < 3, v m j = rigid3At x a w m j := by
      intro f hf
      induction hf with
      | refl => exact ⟨he, ha⟩
      | @tail g f _ hgf ih =>
        obtain ⟨hg, ihr⟩ := ih
        obtain ⟨hfm, m, m', m'', hne, hsh⟩ := hgf
        obtain ⟨a', w', hr'⟩ := hr f hfm
        obtain ⟨rfl, rfl⟩ := rigid3_unique hne (a := a) (w := w) (a' := a') (w' := w') fun k hk j hj => by
          rw [← ihr k (hsh k hk).1 j hj, ← hr' k (hsh k hk).2 j hj]
        exact ⟨hfm, hr'⟩
    obtain ⟨rfl, rfl⟩ := hsup a w (by
      rintro ⟨m, j⟩ hs ⟨f, hf, hm⟩ hj
      rw [← (hspread f (hconn e he f hf)).2 m hm j hj]
      exact hv m j fun hc => hc.2.2 hs)
    intro m hm j hj
    rw [ha m hm j hj]
    rcases j with _ | _ | _ | j <;> simp [rigid3At]
  intro m j
  by_cases hmj : m < x.length ∧ j < 3
  · rcases huse m hmj.1 j hmj.2 with ⟨e, he, hm⟩ | hf
    · exact hmesh e he m hm j hmj.2
    · exact hv m j fun hc => hc.2.2 hf
  · exact hv m j fun hc => hmj ⟨hc.1, hc.2.1⟩

theorem nodal_fits (hq : ∀ p ∈ q, p.1.1 < x.length ∧ p.1.2 < 3) :
    (AsmCall.nodal q).Fits (freeTable x.length 3) (zeroField x.length 3) := by
  refine ⟨?_, trivial⟩
  intro p hp
  simp only [AsmCall.dofs, List.mem_map] at hp
  obtain ⟨r, hr, rfl⟩ := hp
  have hr' : r.1 ∈ q := by
    have := List.mem_zipIdx hr
    rw [this.2.2]
    exact List.getElem_mem _
  obtain ⟨b1, b2⟩ := hq _ hr'
  exact ⟨by simp only [dofNum_freeTable b1 b2]; rfl, by simp only [nodal_zeroField b1 b2]; rfl⟩

/-- The energy of the matrix of one element. -/
theorem brick_energy (hB : Bricks x elements) (hE : 0 < E) (h1 : -1 < V) (h2 : 2 * V < 1) {e : List ℕ}
    (he : e ∈ elements) {X : Matrix (Fin 8) (Fin 3) ℝ} (hX : gather x e 8 3 = some X)
    {A : Matrix (Fin 8 × Fin 3) (Fin 8 × Fin 3) ℝ} (hA : solidStiffness SF.cubic8 IC.gauss8Cubic X E V = some A)
    (v : ℕ → ℕ → ℝ) : 0 ≤ localField [0, 1, 2] e v ⬝ᵥ (A *ᵥ localField [0, 1, 2] e v) ∧
      (localField [0, 1, 2] e v ⬝ᵥ (A *ᵥ localField [0, 1, 2] e v) = 0 →
        ∃ a w, ∀ m ∈ e, ∀ j < 3, v m j = rigid3At x a w m j) := by
  obtain ⟨o, M, hM, hX', hx⟩ := bricks_gather hB he
  obtain rfl := Option.some.inj (hX.symm.trans hX')
  refine ⟨C34_solid (fun g => by rw [brick_measure]; linarith) hE.le h1 h2 hA _, fun hz => ?_⟩
  obtain ⟨a, w, haw⟩ := (C114_kernel hM hE h1 h2 hA _).2.1 hz
  exact ⟨a, w, rigid_local (gather_length hX) hx haw⟩

/-- **C114**: on a mesh of parallelepipeds connected through faces, with supports that allow no rigid motion, the
program computes the displacements, unless no free dof is loaded. -/
theorem C114_solid (hB : Bricks x elements) (hE : 0 < E) (h1 : -1 < V) (h2 : 2 * V < 1)
    (hbc : ∀ p ∈ bc, p.1.1 < x.length ∧ p.1.2 < 3) (hq : ∀ p ∈ q, p.1.1 < x.length ∧ p.1.2 < 3)
    (hconn : FaceConnected x elements) (hsup : Supported3 x elements (bc.map Prod.fst))
    (huse : ∀ m < x.length, ∀ j < 3, (∃ e ∈ elements, m ∈ e) ∨ (m, j) ∈ bc.map Prod.fst)
    (hN : x.length * 3 ≤ 100000) :
    ∃ calls, solidCalls x elements q E V = some calls ∧
      (∀ c ∈ calls, c.Fits (freeTable x.length 3) (zeroField x.length 3)) ∧
      ((∃ p ∈ freeDofs (freeTable x.length 3) bc,
          residual calls (given (zeroField x.length 3) (freeTable x.length 3) bc) p.1 p.2 ≠ 0) →
        ∃ u, solidStatic x elements bc q E V = some (u, true)) := by
  have hV : (1 + V) * (1 - 2 * V) ≠ 0 := (mul_pos (by linarith) (by linarith)).ne'
  obtain ⟨ks, hks⟩ := Option.isSome_iff_exists.1 (matrixCalls_isSome (k := 3) (dl := [0, 1, 2])
    (core := fun X => solidStiffness SF.cubic8 IC.gauss8Cubic X E V) (x := x) (elements := elements) rfl
    fun e he => by
      obtain ⟨o, A, hA, hX, -⟩ := bricks_gather hB he
      exact ⟨_, _, hX, solidStiffness_eq_some.2 ⟨_, solidC_eq_some.2 ⟨hV, rfl⟩, brick_regular hA.ne', rfl⟩⟩)
  have hcalls : solidCalls x elements q E V = some (ks ++ [.nodal q]) := by
    unfold solidCalls
    simp only [hks, Option.bind_eq_bind, Option.bind_some, Option.pure_def]
  obtain ⟨m1, m2⟩ := matrixCalls_some hks
  have hcases : ∀ {P : AsmCall ℝ → Prop}, (∀ c ∈ ks, P c) → P (.nodal q) → ∀ c ∈ ks ++ [.nodal q], P c := by
    intro P p1 p2 c hc
    simp only [List.mem_append, List.mem_singleton] at hc
    rcases hc with hc | rfl
    · exact p1 c hc
    · exact p2
  have hdl : ∀ j ∈ [0, 1, 2], j < 3 := by decide
  have hfit : ∀ c ∈ ks ++ [.nodal q], c.Fits (freeTable x.length 3) (zeroField x.length 3) := by
    refine hcases (fun c hc => ?_) (nodal_fits hq)
    obtain ⟨a1, e, -, a2⟩ := m1 c hc
    exact elem_fits a1 hdl (by norm_num) a2
  have hen : ∀ (e : List ℕ) (c : AsmCall ℝ), e ∈ elements → ElemCall (k := 3) (fun X => solidStiffness
      SF.cubic8 IC.gauss8Cubic X E V) [0, 1, 2] x e c → ∀ v : ℕ → ℕ → ℝ, 0 ≤ callEnergy c v v ∧
        (callEnergy c v v = 0 → ∃ a w, ∀ m ∈ e, ∀ j < 3, v m j = rigid3At x a w m j) := by
    rintro e c' he ⟨X, A, hX, hA, rfl⟩ v
    rw [matrix_energy A (gather_length hX) rfl]
    exact brick_energy hB hE h1 h2 he hX hA v
  refine ⟨_, hcalls, hfit, fun hload => ?_⟩
  obtain ⟨u, hres⟩ := program_succeeds useScalingCG_finds hfit hbc
    (hcases (fun c hc => by
        obtain ⟨a1, e, -, a2⟩ := m1 c hc
        exact elem_sym a1 a2 fun X A hA => C32_solid hA)
      (by intros; rfl))
    (hcases (fun c hc v => by
        obtain ⟨a1, e, he, a2⟩ := m1 c hc
        exact (hen e c he a2 v).1)
      (fun v => (nodal_energy q v v).ge))
    (fun v hv hall => bricks_zero hconn hsup huse hv fun e he => by
      obtain ⟨c, hc, hcall⟩ := m2 e he
      exact (hen e c he hcall v).2 (hall c (by simp [hc])))
    hload hN
  exact ⟨u, by
    unfold solidStatic
    simp only [hcalls, Option.bind_eq_bind, Option.bind_some]
    exact hres⟩

end

end Pansfem
