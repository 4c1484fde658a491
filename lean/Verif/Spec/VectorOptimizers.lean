/-
What it means that vectors hold the data of an optimiser of fixed size.
-/
import Verif.Model.VectorOptimizers

namespace Pansfem

/-- The vector has the values as its first entries: it may be longer. -/
def Holds {k : ℕ} (l : List ℝ) (f : Fin k → ℝ) : Prop := ∀ i : Fin k, l[(i : ℕ)]? = some (f i)

/-- The vector of vectors has the values as the first entries of its first vectors. -/
def HoldsTab {r k : ℕ} (A : List (List ℝ)) (f : Fin r → Fin k → ℝ) : Prop :=
  ∀ i : Fin r, ∃ l, A[(i : ℕ)]? = some l ∧ Holds l (f i)

/-- The object with vectors has the data of the object with `n` variables and `m` constraints. -/
structure MMAV.Represents {n m : ℕ} (v : MMAV) (o : MMA n m) : Prop where
  k : v.k = o.k
  n : v.n = n
  m : v.m = m
  previousvalue : v.previousvalue = o.previousvalue
  epsvalue : v.epsvalue = o.epsvalue
  a0 : v.a0 = o.a0
  raa0 : v.raa0 = o.raa0
  albefa : v.albefa = o.albefa
  move : v.move = o.move
  asyinit : v.asyinit = o.asyinit
  asydecr : v.asydecr = o.asydecr
  asyincr : v.asyincr = o.asyincr
  xmin : Holds v.xmin o.xmin
  xmax : Holds v.xmax o.xmax
  xkm1 : Holds v.xkm1 o.xkm1
  xkm2 : Holds v.xkm2 o.xkm2
  a : Holds v.a o.a
  c : Holds v.c o.c
  d : Holds v.d o.d
  L : Holds v.L o.L
  U : Holds v.U o.U

/-- The same for CONLIN. -/
structure CONLINV.Represents {n m : ℕ} (v : CONLINV) (o : CONLIN n m) : Prop where
  k : v.k = o.k
  n : v.n = n
  m : v.m = m
  previousvalue : v.previousvalue = o.previousvalue
  epsvalue : v.epsvalue = o.epsvalue
  a0 : v.a0 = o.a0
  move : v.move = o.move
  xmin : Holds v.xmin o.xmin
  xmax : Holds v.xmax o.xmax
  a : Holds v.a o.a
  c : Holds v.c o.c
  d : Holds v.d o.d

/-- The vectors of a call are long enough for `n` variables and `m` constraints. -/
structure LongEnough (n m : ℕ) (dfdx g : List ℝ) (dgdx : List (List ℝ)) : Prop where
  dfdx : n ≤ dfdx.length
  g : m ≤ g.length
  dgdx : ∀ i < m, ∃ r, dgdx[i]? = some r ∧ n ≤ r.length

/-- What a user of `MMA` has to provide: vectors that are long enough, a box with an interior that contains the design,
sensible parameters. -/
structure MMAV.Ready (v : MMAV) (x : List ℝ) : Prop where
  box : ∀ j < v.n, ∃ l u t, v.xmin[j]? = some l ∧ v.xmax[j]? = some u ∧ x[j]? = some t ∧ l < u ∧ l ≤ t ∧ t ≤ u
  past : v.n ≤ v.xkm1.length ∧ v.n ≤ v.xkm2.length
  asymptotes : v.n ≤ v.L.length ∧ v.n ≤ v.U.length
  weights : v.m ≤ v.a.length ∧ v.m ≤ v.c.length ∧ ∀ i < v.m, ∃ d, v.d[i]? = some d ∧ 0 ≤ d
  albefa : 0 < v.albefa ∧ v.albefa < 1
  move : 0 < v.move
  raa0 : 0 ≤ v.raa0

/-- The same for `CONLIN`, which needs positive lower bounds. -/
structure CONLINV.Ready (v : CONLINV) (x : List ℝ) : Prop where
  box : ∀ j < v.n, ∃ l u t, v.xmin[j]? = some l ∧ v.xmax[j]? = some u ∧ x[j]? = some t ∧ 0 < l ∧ l < u ∧ l ≤ t ∧ t ≤ u
  weights : v.m ≤ v.a.length ∧ v.m ≤ v.c.length ∧ ∀ i < v.m, ∃ d, v.d[i]? = some d ∧ 0 ≤ d
  move : 0 < v.move

/-- A sequence of calls of `UpdateVariables`, each with vectors that are long enough, and the designs after them. -/
inductive MMAVCalls : MMAV → List ℝ → MMAV → List ℝ → Prop
  | nil (v x) : MMAVCalls v x v x
  | cons {v x v1 x1 v2 x2} (fuel : ℕ) (f : ℝ) (dfdx g : List ℝ) (dgdx : List (List ℝ))
      (long : LongEnough v.n v.m dfdx g dgdx) (call : mmaUpdateV v fuel x f dfdx g dgdx = .done (x1, v1))
      (rest : MMAVCalls v1 x1 v2 x2) : MMAVCalls v x v2 x2

end Pansfem
