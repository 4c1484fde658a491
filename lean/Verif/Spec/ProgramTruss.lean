/-
What the properties of the truss programs refer to.
-/
import Verif.Model.ProgramTruss
import Verif.Spec.ProgramOptimize

noncomputable section

namespace Pansfem

/-! ### Bars -/

/-- A component of the vector from the first end of a bar to the second. -/
def barSpan (x : List (Vec ℝ)) (e : List ℕ) (d : ℕ) : ℝ := coord x (e[1]?.getD 0) d - coord x (e[0]?.getD 0) d

/-- The length of a bar. -/
def barLen (x : List (Vec ℝ)) (e : List ℕ) : ℝ := Real.sqrt (barSpan x e 0 ^ 2 + barSpan x e 1 ^ 2)

/-- The elongation of a bar for small displacements of its ends. -/
def elongation (x : List (Vec ℝ)) (e : List ℕ) (v : ℕ → ℕ → ℝ) : ℝ :=
  (barSpan x e 0 * (v (e[1]?.getD 0) 0 - v (e[0]?.getD 0) 0) +
    barSpan x e 1 * (v (e[1]?.getD 0) 1 - v (e[0]?.getD 0) 1)) / barLen x e

/-- The axial force in a bar, positive if it is pulled. -/
def axialForce (E A : ℝ) (x : List (Vec ℝ)) (e : List ℕ) (v : ℕ → ℕ → ℝ) : ℝ :=
  E * A / barLen x e * elongation x e v

/-- The force of a bar on the node `n` in the direction `d`: a bar under tension pulls its first end towards the second
and the second towards the first. -/
def forceOn (x : List (Vec ℝ)) (e : List ℕ) (N : ℝ) (n d : ℕ) : ℝ :=
  (if n = e[0]?.getD 0 then N * (barSpan x e d / barLen x e) else 0) -
    if n = e[1]?.getD 0 then N * (barSpan x e d / barLen x e) else 0

/-- The forces of the bars and the loads at a node. -/
def forceSum (x : List (Vec ℝ)) (elements : List (List ℕ)) (qfixed : List ((ℕ × ℕ) × ℝ)) (N : Fin elements.length → ℝ)
    (n d : ℕ) : ℝ := ∑ i : Fin elements.length, forceOn x elements[i] (N i) n d + nodalLoad qfixed n d

/-- No displacement but zero leaves the supports where they are and all bars as long as they are. -/
def Stiff (x : List (Vec ℝ)) (elements : List (List ℕ)) (ufixed : List ((ℕ × ℕ) × ℝ)) : Prop :=
  ∀ v : ℕ → ℕ → ℝ, (∀ m j, ¬ (m < x.length ∧ j < 2 ∧ (m, j) ∉ ufixed.map Prod.fst) → v m j = 0) →
    (∀ e ∈ elements, elongation x e v = 0) → v = 0

/-- A truss that can be analysed: bars of positive length that are stiff together with the supports, supports that
prescribe no displacement, and a load at a dof that is not fixed. -/
structure TrussOk (x : List (Vec ℝ)) (elements : List (List ℕ)) (ufixed qfixed : List ((ℕ × ℕ) × ℝ)) : Prop where
  bars : Bars x elements
  stiff : Stiff x elements ufixed
  fixedRange : ∀ r ∈ ufixed, r.1.1 < x.length ∧ r.1.2 < 2
  fixedZero : ∀ r ∈ ufixed, r.2 = 0
  loadRange : ∀ r ∈ qfixed, r.1.1 < x.length ∧ r.1.2 < 2
  loaded : ∃ n < x.length, ∃ d < 2, (n, d) ∉ ufixed.map Prod.fst ∧ nodalLoad qfixed n d ≠ 0
  size : x.length ≤ 50000

/-- The supports do not move and the forces of the bars balance the loads up to `1e-10` of their norm. -/
def Balanced (x : List (Vec ℝ)) (elements : List (List ℕ)) (ufixed qfixed : List ((ℕ × ℕ) × ℝ))
    (N : Fin elements.length → ℝ) (u : List (Vec ℝ)) : Prop :=
  (∀ r ∈ ufixed, nodal u r.1.1 r.1.2 = some 0) ∧
    dofNorm (freeDofs (freeTable x.length 2) ufixed) (forceSum x elements qfixed N) <
      1 / 10 ^ 10 * dofNorm (freeDofs (freeTable x.length 2) ufixed) (nodalLoad qfixed)

/-! ### Size optimisation -/

/-- A problem of the size optimisation: a truss that can be analysed, with its lengths and their sum, a positive modulus,
sections `0 < A0 ≤ A1`, and a positive limit and scale. -/
structure TrussProgram.Ok (P : TrussProgram) : Prop where
  truss : TrussOk P.x P.elements P.ufixed P.qfixed
  lengths : P.l = P.elements.map (barLen P.x)
  total : P.lsum = P.l.sum
  modulus : 0 < P.E
  sections : 0 < P.A0 ∧ P.A0 ≤ P.A1
  limit : 0 < P.weightlimit
  scale : 0 < P.scale0

/-- The length of the `i`-th bar. -/
def TrussProgram.len (P : TrussProgram) (i : Fin P.elements.length) : ℝ := barLen P.x P.elements[i]

/-- The section of the `i`-th bar in a design. -/
def TrussProgram.area (P : TrussProgram) (s : List ℝ) (i : Fin P.elements.length) : ℝ :=
  P.A0 + (P.A1 - P.A0) * s[(i : ℕ)]?.getD 0

/-- The elongation of the `i`-th bar. -/
def TrussProgram.stretch (P : TrussProgram) (u : List (Vec ℝ)) (i : Fin P.elements.length) : ℝ :=
  elongation P.x P.elements[i] (valOf u)

/-- An evaluation as it should be.  The solver has converged: the supports do not move and the axial forces balance the
loads up to `1e-10` of their norm.  The weight is the mean of the variables, by length, over the limit, less one; the
objective is the scaled work of the axial forces on the elongations, and positive; the sensitivities are the derivatives,
those of the objective with the displacements held fixed and the sign of a compliance. -/
structure TrussEvaluation.Sound (P : TrussProgram) (s : List ℝ) (e : TrussEvaluation) : Prop where
  solved : e.solved = true
  balance : Balanced P.x P.elements P.ufixed P.qfixed
    (fun i => axialForce P.E (P.area s i) P.x P.elements[i] (valOf e.u)) e.u
  weight : e.g = (∑ i : Fin P.elements.length, s[(i : ℕ)]?.getD 0 * P.len i) / (P.weightlimit * ∑ i, P.len i) - 1
  compliance : e.f = P.scale0 * ∑ i : Fin P.elements.length,
    axialForce P.E (P.area s i) P.x P.elements[i] (valOf e.u) * P.stretch e.u i
  objective : 0 < e.f
  dcompliance : e.dfds = List.ofFn fun i : Fin P.elements.length =>
    -(P.scale0 * ((P.A1 - P.A0) * (P.E / P.len i * P.stretch e.u i ^ 2)))
  dweight : e.dgds = List.ofFn fun i : Fin P.elements.length => P.len i / (P.weightlimit * ∑ j, P.len j)
  dfsign : ∀ a ∈ e.dfds, a ≤ 0
  dgsign : ∀ a ∈ e.dgds, 0 < a

/-- A run of at most `N` passes as it should be: no operation is undefined, the first design is `1/2` everywhere, the
variables of every design lie in `box`, every evaluation is sound, and from one pass to the next every variable makes a
`step`.  The run ends after the first pass whose objective has settled, which takes two passes, after `N` passes, or in an
optimiser that does not return. -/
structure SoundTrussRun (P : TrussProgram) (eps : ℝ) (box : ℝ → Prop) (step : ℝ → ℝ → Prop) (N : ℕ)
    (r : List TrussPass × Ending) : Prop where
  defined : r.2 ≠ .undefined
  count : r.1.length ≤ N
  start : r.1.head?.map TrussPass.s = some (List.replicate P.elements.length 0.5)
  design : ∀ q ∈ r.1, q.s.length = P.elements.length ∧ (∀ a ∈ q.s, box a) ∧ q.value.Sound P q.s
  moves : List.IsChain (List.Forall₂ step) (r.1.map TrussPass.s)
  exhausted : r.2 = .exhausted → r.1.length = N
  settles : ∀ i (h : i + 1 < r.1.length), Settled eps r.1[i].value.f r.1[i + 1].value.f ↔
    i + 2 = r.1.length ∧ r.2 = .optimised
  twice : r.2 = .optimised → 2 ≤ r.1.length

/-- The designs of a run come from an optimiser, as in `UpdatedBy`. -/
def TrussUpdatedBy {S : Type} (update : S → TrussPass → Run (List ℝ × S)) (o : S) (r : List TrussPass × Ending) : Prop :=
  ∃ st : ℕ → S, st 0 = o ∧
    (∀ i (h : i + 1 < r.1.length), update (st i) r.1[i] = .done (r.1[i + 1].s, st (i + 1))) ∧
    (r.2 = .stuck → ∃ q, r.1.getLast? = some q ∧ update (st (r.1.length - 1)) q = .running)

end Pansfem
