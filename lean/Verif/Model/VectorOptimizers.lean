/-
MMA and CONLIN on `std::vector`s: /repo/src/Optimize/Solver/MMA.h and CONLIN.h on lists of reals, without fixing the
lengths.  `Verif/Model/MMA.lean` has the same functions on `Fin n → ℝ`; the property C139 relates the two.

* A subscript outside a vector and a division by zero (infinity or NaN in the code) are undefined: `none`.  Every
  division is tested where it is made.
* A local vector that a loop fills entry by entry is the list of its entries; a value increased in a loop is the result
  of a fold from left to right.
* The inner loops of the two solvers differ only in the functions that approximate the objective and the constraints;
  these are a parameter (`BasisV`).
* `solvels` gets the system as arrays (`Model/LU.lean`): the two vectors are local and have the size of the system.
* The inner loop runs with a bound on the number of passes; `running` means that the bound was reached.
-/
import Verif.Model.MMA

namespace Pansfem

noncomputable section

/-- A vector filled by a loop over `0, …, k - 1` (for example MMA.h:201-212). -/
def vecOf (k : ℕ) (f : ℕ → Option ℝ) : Option (List ℝ) := (List.range k).mapM f

/-- A vector of vectors filled by two loops (for example MMA.h:261-272). -/
def tabOf (r k : ℕ) (f : ℕ → ℕ → Option ℝ) : Option (List (List ℝ)) := (List.range r).mapM fun i => vecOf k (f i)

/-- A value increased in a loop over `0, …, k - 1` (for example MMA.h:240-244). -/
def sumFrom (k : ℕ) (start : ℝ) (f : ℕ → Option ℝ) : Option ℝ :=
  (List.range k).foldlM (fun acc i => do return acc + (← f i)) start

/-- `A[i][j]` for a vector of vectors (for example MMA.h:261-272). -/
def ent (A : List (List ℝ)) (i j : ℕ) : Option ℝ := do (← A[i]?)[j]?

/-- The approximating functions, with the divisions that they make: value, first and second derivative
(MMA.h:215-243, CONLIN.h:163-191). -/
structure BasisV where
  val : ℕ → ℝ → ℝ → ℝ → Option ℝ
  slope : ℕ → ℝ → ℝ → ℝ → Option ℝ
  curv : ℕ → ℝ → ℝ → ℝ → Option ℝ

/-- The functions of MMA (MMA.h:215, 222-223, 243, 437, 444). -/
def mmaBasisV (L U : List ℝ) : BasisV where
  val j p q x := do return (← div? p ((← U[j]?) - x)) + (← div? q (x - (← L[j]?)))
  slope j p q x := do return (← div? p (((← U[j]?) - x) ^ 2)) - (← div? q ((x - (← L[j]?)) ^ 2))
  curv j p q x := do return (← div? (2 * p) (((← U[j]?) - x) ^ 3)) + (← div? (2 * q) ((x - (← L[j]?)) ^ 3))

/-- The functions of CONLIN (CONLIN.h:163, 170-171, 191, 383, 390). -/
def conlinBasisV : BasisV where
  val _ p q x := do return p * x + (← div? q x)
  slope _ p q x := do return p - (← div? q (x ^ 2))
  curv _ _ q x := div? (2 * q) (x ^ 3)

/-- The subproblem (MMA.h:145-175, CONLIN.h:93-123); `a`, `c`, `d` are the data members, of any length. -/
structure SubV where
  basis : BasisV
  alpha : List ℝ
  beta : List ℝ
  p0 : List ℝ
  q0 : List ℝ
  p : List (List ℝ)
  q : List (List ℝ)
  b : List ℝ
  a0 : ℝ
  a : List ℝ
  c : List ℝ
  d : List ℝ

/-- The variables of the inner loop (MMA.h:179-188, CONLIN.h:127-136); also a direction (MMA.h:250-258,
CONLIN.h:198-206). -/
structure PtV where
  x : List ℝ
  y : List ℝ
  z : ℝ
  lam : List ℝ
  gsi : List ℝ
  ita : List ℝ
  mu : List ℝ
  zeta : ℝ
  s : List ℝ

section Inner
variable (n m : ℕ) (P : SubV)

/-- The start of the inner loop (MMA.h:178-197, CONLIN.h:126-145). -/
def ipStartV : Option PtV := do
  let mu ← vecOf m fun i => do return max 1 (0.5 * (← P.c[i]?))
  let x ← vecOf n fun j => do return 0.5 * ((← P.alpha[j]?) + (← P.beta[j]?))
  let gsi ← vecOf n fun j => do return max 1 (← div? 1 ((← x[j]?) - (← P.alpha[j]?)))
  let ita ← vecOf n fun j => do return max 1 (← div? 1 ((← P.beta[j]?) - (← x[j]?)))
  return ⟨x, List.replicate m 1, 1, List.replicate m 1, gsi, ita, mu, 1, List.replicate m 1⟩

/-- `plambda` or `qlambda` (MMA.h:201-210, 427-437, CONLIN.h:149-158, 373-383). -/
def combineV (v0 : List ℝ) (v : List (List ℝ)) (lam : List ℝ) : Option (List ℝ) :=
  vecOf n fun j => do sumFrom m (← v0[j]?) fun i => do return (← lam[i]?) * (← ent v i j)

/-- The coefficients of the Newton equations (MMA.h:201-247, CONLIN.h:149-195). -/
structure CoefV where
  G : List (List ℝ)
  Dx : List ℝ
  delx : List ℝ
  Dy : List ℝ
  dely : List ℝ
  delz : ℝ
  Dly : List ℝ
  delly : List ℝ

/-- `std::inner_product(lambda.begin(), lambda.end(), a.begin(), T())` (MMA.h:235, 457, CONLIN.h:183, 403). -/
def innerA (lam : List ℝ) : Option ℝ := sumFrom lam.length 0 fun i => do return (← lam[i]?) * (← P.a[i]?)

/-- The coefficients of the Newton equations (MMA.h:201-247, CONLIN.h:149-195). -/
def coefV (w : PtV) (eps : ℝ) : Option CoefV := do
  let pl ← combineV n m P.p0 P.p w.lam
  let ql ← combineV n m P.q0 P.q w.lam
  let G ← tabOf m n fun i j => do P.basis.slope j (← ent P.p i j) (← ent P.q i j) (← w.x[j]?)
  let Dx ← vecOf n fun j => do
    return (← P.basis.curv j (← pl[j]?) (← ql[j]?) (← w.x[j]?)) + (← div? (← w.gsi[j]?) ((← w.x[j]?) - (← P.alpha[j]?))) +
      (← div? (← w.ita[j]?) ((← P.beta[j]?) - (← w.x[j]?)))
  let delx ← vecOf n fun j => do
    return (← P.basis.slope j (← pl[j]?) (← ql[j]?) (← w.x[j]?)) - (← div? eps ((← w.x[j]?) - (← P.alpha[j]?))) +
      (← div? eps ((← P.beta[j]?) - (← w.x[j]?)))
  let Dy ← vecOf m fun i => do return (← P.d[i]?) + (← div? (← w.mu[i]?) (← w.y[i]?))
  let Dl ← vecOf m fun i => do div? (← w.s[i]?) (← w.lam[i]?)
  let dely ← vecOf m fun i => do
    return (← P.c[i]?) + (← P.d[i]?) * (← w.y[i]?) - (← w.lam[i]?) - (← div? eps (← w.y[i]?))
  let delz := P.a0 - (← div? eps w.z) - (← innerA P w.lam)
  let dell ← vecOf m fun i => do
    let start := -(← P.a[i]?) * w.z - (← w.y[i]?) - (← P.b[i]?) + (← div? eps (← w.lam[i]?))
    sumFrom n start fun j => do P.basis.val j (← ent P.p i j) (← ent P.q i j) (← w.x[j]?)
  let Dly ← vecOf m fun i => do return (← Dl[i]?) + (← div? 1 (← Dy[i]?))
  let delly ← vecOf m fun i => do return (← dell[i]?) + (← div? (← dely[i]?) (← Dy[i]?))
  return ⟨G, Dx, delx, Dy, dely, delz, Dly, delly⟩

/-- The arrays that `solvels` reads (MMA.h:465, CONLIN.h:411). -/
def sysMatrix (A : List (List ℝ)) (i j : ℕ) : ℝ := (ent A i j).getD 0

/-- The right hand side that `solvels` reads (MMA.h:465, CONLIN.h:411). -/
def sysRhs (b : List ℝ) (i : ℕ) : ℝ := b[i]?.getD 0

/-- `A` and `B` for more variables than constraints (MMA.h:261-280, CONLIN.h:209-228). -/
def dualSystemV (w : PtV) (C : CoefV) : Option (List (List ℝ) × List ℝ) := do
  let A ← tabOf (m + 1) (m + 1) fun i j =>
    if i < m then
      if j < m then do
        let s ← sumFrom n 0 fun k => do div? ((← ent C.G i k) * (← ent C.G j k)) (← C.Dx[k]?)
        if i = j then return s + (← C.Dly[i]?) else return s
      else P.a[i]?
    else if j < m then P.a[j]? else div? (-w.zeta) w.z
  let B ← vecOf (m + 1) fun i =>
    if i < m then do
      sumFrom n (← C.delly[i]?) fun k => do return -(← div? ((← ent C.G i k) * (← C.delx[k]?)) (← C.Dx[k]?))
    else return C.delz
  return (A, B)

/-- `A` and `B` otherwise (MMA.h:293-318, CONLIN.h:241-266); the corner of `A` is increased for every variable. -/
def primalSystemV (w : PtV) (C : CoefV) : Option (List (List ℝ) × List ℝ) := do
  let A ← tabOf (n + 1) (n + 1) fun i j =>
    if i < n then
      if j < n then do
        let s ← sumFrom m 0 fun k => do div? ((← ent C.G k i) * (← ent C.G k j)) (← C.Dly[k]?)
        if i = j then return s + (← C.Dx[i]?) else return s
      else sumFrom m 0 fun k => do return -(← div? ((← ent C.G k i) * (← P.a[k]?)) (← C.Dly[k]?))
    else if j < n then sumFrom m 0 fun k => do return -(← div? ((← ent C.G k j) * (← P.a[k]?)) (← C.Dly[k]?))
    else do
      let s ← sumFrom n 0 fun _ => sumFrom m 0 fun k => do div? ((← P.a[k]?) * (← P.a[k]?)) (← C.Dly[k]?)
      return s + (← div? w.zeta w.z)
  let B ← vecOf (n + 1) fun i =>
    if i < n then do
      sumFrom m (-(← C.delx[i]?)) fun k => do return -(← div? ((← ent C.G k i) * (← C.delly[k]?)) (← C.Dly[k]?))
    else sumFrom m (-C.delz) fun k => do div? ((← P.a[k]?) * (← C.delly[k]?)) (← C.Dly[k]?)
  return (A, B)

/-- `dx`, `dlambda` and `dz` (MMA.h:260-330, CONLIN.h:208-278). -/
def reducedV (w : PtV) (C : CoefV) : Option (List ℝ × List ℝ × ℝ) :=
  if m < n then do
    let (A, B) ← dualSystemV n m P w C
    let v ← solvels (m + 1) (sysMatrix A) (sysRhs B)
    let dlam ← vecOf m fun i => return v i
    let dx ← vecOf n fun j => do
      sumFrom m (← div? (-(← C.delx[j]?)) (← C.Dx[j]?)) fun i => do
        return -(← div? ((← ent C.G i j) * (← dlam[i]?)) (← C.Dx[j]?))
    return (dx, dlam, v m)
  else do
    let (A, B) ← primalSystemV n m P w C
    let v ← solvels (n + 1) (sysMatrix A) (sysRhs B)
    let dx ← vecOf n fun j => return v j
    let dlam ← vecOf m fun i => do
      let start := (← div? (-(← P.a[i]?) * v n) (← C.Dly[i]?)) + (← div? (← C.delly[i]?) (← C.Dly[i]?))
      sumFrom n start fun j => do div? ((← ent C.G i j) * (← dx[j]?)) (← C.Dly[i]?)
    return (dx, dlam, v n)

/-- The Newton direction (MMA.h:200-343, CONLIN.h:148-291). -/
def newtonV (w : PtV) (eps : ℝ) : Option PtV := do
  let C ← coefV n m P w eps
  let (dx, dlam, dz) ← reducedV n m P w C
  let dy ← vecOf m fun i => do return (← div? (← dlam[i]?) (← C.Dy[i]?)) - (← div? (← C.dely[i]?) (← C.Dy[i]?))
  let dmu ← vecOf m fun i => do
    return (← div? (-(← w.mu[i]?) * (← dy[i]?)) (← w.y[i]?)) - (← w.mu[i]?) + (← div? eps (← w.y[i]?))
  let ds ← vecOf m fun i => do
    return (← div? (-(← w.s[i]?) * (← dlam[i]?)) (← w.lam[i]?)) - (← w.s[i]?) + (← div? eps (← w.lam[i]?))
  let dgsi ← vecOf n fun j => do
    return (← div? (-(← w.gsi[j]?) * (← dx[j]?)) ((← w.x[j]?) - (← P.alpha[j]?))) - (← w.gsi[j]?) +
      (← div? eps ((← w.x[j]?) - (← P.alpha[j]?)))
  let dita ← vecOf n fun j => do
    return (← div? ((← w.ita[j]?) * (← dx[j]?)) ((← P.beta[j]?) - (← w.x[j]?))) - (← w.ita[j]?) +
      (← div? eps ((← P.beta[j]?) - (← w.x[j]?)))
  let dzeta := (← div? (-w.zeta * dz) w.z) - w.zeta + (← div? eps w.z)
  return ⟨dx, dy, dz, dlam, dgsi, dita, dmu, dzeta, ds⟩

/-- A maximum found by a loop that starts at zero (MMA.h:346-359, CONLIN.h:294-307). -/
def loopMaxV (k : ℕ) (f : ℕ → Option ℝ) : Option ℝ :=
  (List.range k).foldlM (fun t i => do
    let v ← f i
    return if t < v then v else t) 0

/-- The first step length (MMA.h:345-360, CONLIN.h:293-308). -/
def stepLengthV (w d : PtV) : Option ℝ := do
  let tx ← loopMaxV n fun j => do
    return max (max (← div? (-1.01 * (← d.x[j]?)) ((← w.x[j]?) - (← P.alpha[j]?)))
        (← div? (1.01 * (← d.x[j]?)) ((← P.beta[j]?) - (← w.x[j]?))))
      (max (← div? (-1.01 * (← d.gsi[j]?)) (← w.gsi[j]?)) (← div? (-1.01 * (← d.ita[j]?)) (← w.ita[j]?)))
  let ty ← loopMaxV m fun i => do
    return max (max (← div? (-1.01 * (← d.y[i]?)) (← w.y[i]?)) (← div? (-1.01 * (← d.lam[i]?)) (← w.lam[i]?)))
      (max (← div? (-1.01 * (← d.mu[i]?)) (← w.mu[i]?)) (← div? (-1.01 * (← d.s[i]?)) (← w.s[i]?)))
  let tz ← div? (-1.01 * d.z) w.z
  let tzeta ← div? (-1.01 * d.zeta) w.zeta
  div? 1 (max (max (max 1 tx) ty) (max tz tzeta))

/-- `KKTNorm` (MMA.h:422-461, CONLIN.h:368-407); every square is added to `norm` in the order of the code. -/
def kktNormV (w : PtV) (eps : ℝ) : Option ℝ := do
  let pl ← combineV n m P.p0 P.p w.lam
  let ql ← combineV n m P.q0 P.q w.lam
  let g ← vecOf m fun i => sumFrom n 0 fun j => do P.basis.val j (← ent P.p i j) (← ent P.q i j) (← w.x[j]?)
  let norm ← (List.range n).foldlM (fun (t : ℝ) j => do
    let t := t + ((← P.basis.slope j (← pl[j]?) (← ql[j]?) (← w.x[j]?)) - (← w.gsi[j]?) + (← w.ita[j]?)) ^ 2
    let t := t + ((← w.gsi[j]?) * ((← w.x[j]?) - (← P.alpha[j]?)) - eps) ^ 2
    return t + ((← w.ita[j]?) * ((← P.beta[j]?) - (← w.x[j]?)) - eps) ^ 2) 0
  let norm ← (List.range m).foldlM (fun (t : ℝ) i => do
    let t := t + ((← P.c[i]?) + (← P.d[i]?) * (← w.y[i]?) - (← w.lam[i]?) - (← w.mu[i]?)) ^ 2
    let t := t + ((← g[i]?) - (← P.a[i]?) * w.z - (← w.y[i]?) + (← w.s[i]?) - (← P.b[i]?)) ^ 2
    let t := t + ((← w.mu[i]?) * (← w.y[i]?) - eps) ^ 2
    return t + ((← w.lam[i]?) * (← w.s[i]?) - eps) ^ 2) norm
  let norm := norm + (P.a0 - w.zeta - (← innerA P w.lam)) ^ 2
  return Real.sqrt (norm + (w.zeta * w.z - eps) ^ 2)

/-- The trial point of length `tau` (MMA.h:372-383, CONLIN.h:320-331). -/
def stepV (w d : PtV) (tau : ℝ) : Option PtV := do
  let along (k : ℕ) (u v : List ℝ) : Option (List ℝ) := vecOf k fun i => do return (← u[i]?) + tau * (← v[i]?)
  let x ← along n w.x d.x
  let gsi ← along n w.gsi d.gsi
  let ita ← along n w.ita d.ita
  let y ← along m w.y d.y
  let lam ← along m w.lam d.lam
  let mu ← along m w.mu d.mu
  let s ← along m w.s d.s
  return ⟨x, y, w.z + tau * d.z, lam, gsi, ita, mu, w.zeta + tau * d.zeta, s⟩

/-- The backtracking loop (MMA.h:371-391, CONLIN.h:319-339) with `k + 1` passes left. -/
def backtrackV (w d : PtV) (eps norm0 : ℝ) : ℕ → ℝ → Option PtV
  | k, tau => do
    let t ← stepV n m w d tau
    let v ← kktNormV n m P t eps
    if v < norm0 then return t
    else match k with
      | 0 => return t
      | k + 1 => backtrackV w d eps norm0 k (tau * 0.5)

/-- One pass of the inner loop (MMA.h:199-411, CONLIN.h:147-359). -/
def ipBodyV (st : PtV × ℝ) : Option (PtV × ℝ) := do
  let d ← newtonV n m P st.1 st.2
  let tau ← stepLengthV n m P st.1 d
  let norm0 ← kktNormV n m P st.1 st.2
  let w ← backtrackV n m P st.1 d st.2 norm0 49 tau
  let v ← kktNormV n m P w st.2
  return (w, if v < 0.9 * st.2 then st.2 * 0.1 else st.2 * 1.0)

/-- The inner loop (MMA.h:199-411, CONLIN.h:147-359). -/
def ipLoopV : ℕ → PtV × ℝ → Run (PtV × ℝ)
  | fuel, st =>
    if 1.0e-7 < st.2 then
      match fuel with
      | 0 => .running
      | fuel + 1 =>
        match ipBodyV n m P st with
        | none => .undefined
        | some st' => ipLoopV fuel st'
    else .done st

/-- The inner loop from its start (MMA.h:178-411, CONLIN.h:126-359). -/
def ipSolveV (fuel : ℕ) : Run (PtV × ℝ) :=
  match ipStartV n m P with
  | none => .undefined
  | some w => ipLoopV n m P fuel (w, 1)

end Inner

/-- The data members of `MMA` (MMA.h:31-54). -/
structure MMAV where
  k : ℕ
  n : ℕ
  m : ℕ
  previousvalue : ℝ
  epsvalue : ℝ
  xmin : List ℝ
  xmax : List ℝ
  xkm2 : List ℝ
  xkm1 : List ℝ
  a0 : ℝ
  a : List ℝ
  c : List ℝ
  d : List ℝ
  raa0 : ℝ
  albefa : ℝ
  move : ℝ
  asyinit : ℝ
  asydecr : ℝ
  asyincr : ℝ
  L : List ℝ
  U : List ℝ

/-- The constructor (MMA.h:64-88): it accepts vectors of any lengths. -/
def MMAV.mk' (n m : ℕ) (a0 : ℝ) (a c d xmin xmax : List ℝ) : MMAV where
  k := 0
  n := n
  m := m
  previousvalue := 0
  epsvalue := 1.0e-5
  xmin := xmin
  xmax := xmax
  xkm2 := List.replicate n 0
  xkm1 := List.replicate n 0
  a0 := a0
  a := a
  c := c
  d := d
  raa0 := 1.0e-5
  albefa := 0.1
  move := 0.5
  asyinit := 0.5
  asydecr := 0.7
  asyincr := 1.2
  L := List.replicate n 0
  U := List.replicate n 0

/-- `SetParameters` (MMA.h:92-100). -/
def MMAV.setParameters (o : MMAV) (raa0 albefa move asyinit asydecr asyincr epsvalue : ℝ) : MMAV :=
  { o with raa0 := raa0, albefa := albefa, move := move, asyinit := asyinit, asydecr := asydecr,
           asyincr := asyincr, epsvalue := epsvalue }

/-- The asymptotes (MMA.h:118-143), one variable after the other; `L` and `U` keep entries that are not written. -/
def asymptotesV (o : MMAV) (xk : List ℝ) : Option (List (ℝ × ℝ)) :=
  (List.range o.n).mapM fun j => do
    let r := (← o.xmax[j]?) - (← o.xmin[j]?)
    let x ← xk[j]?
    let l ← o.L[j]?
    let u ← o.U[j]?
    let (l, u) ←
      if o.k < 2 then pure (x - o.asyinit * r, x + o.asyinit * r)
      else do
        let x1 ← o.xkm1[j]?
        let tmp := (x - x1) * (x1 - (← o.xkm2[j]?))
        if tmp < 0 then pure (x - o.asydecr * (x1 - l), x + o.asydecr * (u - x1))
        else if 0 < tmp then pure (x - o.asyincr * (x1 - l), x + o.asyincr * (u - x1))
        else pure (x - (x1 - l), x + (u - x1))
    return (min (max (x - 10 * r) l) (x - 0.01 * r), min (max (x + 0.01 * r) u) (x + 10 * r))

/-- `p` and `q` for the derivative `df` in variable `j` (MMA.h:156-159, 169-172). -/
def mmaPQ (o : MMAV) (xk L U : List ℝ) (df : ℝ) (j : ℕ) : Option (ℝ × ℝ) := do
  let x ← xk[j]?
  let e ← div? o.raa0 ((← o.xmax[j]?) - (← o.xmin[j]?))
  return (((← U[j]?) - x) ^ 2 * (1.001 * max df 0 + 0.001 * max (-df) 0 + e),
    (x - (← L[j]?)) ^ 2 * (0.001 * max df 0 + 1.001 * max (-df) 0 + e))

/-- The subproblem (MMA.h:145-175). -/
def mmaSubV (o : MMAV) (xk L U dfdx g : List ℝ) (dgdx : List (List ℝ)) : Option SubV := do
  let alpha ← vecOf o.n fun j => do
    return max (max (← o.xmin[j]?) ((← L[j]?) + o.albefa * ((← xk[j]?) - (← L[j]?))))
      ((← xk[j]?) - o.move * ((← o.xmax[j]?) - (← o.xmin[j]?)))
  let beta ← vecOf o.n fun j => do
    return min (min (← o.xmax[j]?) ((← U[j]?) - o.albefa * ((← U[j]?) - (← xk[j]?))))
      ((← xk[j]?) + o.move * ((← o.xmax[j]?) - (← o.xmin[j]?)))
  let p0 ← vecOf o.n fun j => do return (← mmaPQ o xk L U (← dfdx[j]?) j).1
  let q0 ← vecOf o.n fun j => do return (← mmaPQ o xk L U (← dfdx[j]?) j).2
  let p ← tabOf o.m o.n fun i j => do return (← mmaPQ o xk L U (← ent dgdx i j) j).1
  let q ← tabOf o.m o.n fun i j => do return (← mmaPQ o xk L U (← ent dgdx i j) j).2
  let b ← vecOf o.m fun i => do
    sumFrom o.n (-(← g[i]?)) fun j => do
      return (← div? (← ent p i j) ((← U[j]?) - (← xk[j]?))) + (← div? (← ent q i j) ((← xk[j]?) - (← L[j]?)))
  return ⟨mmaBasisV L U, alpha, beta, p0, q0, p, q, b, o.a0, o.a, o.c, o.d⟩

/-- `UpdateVariables` (MMA.h:117-419): the new design and the object. -/
def mmaUpdateV (o : MMAV) (fuel : ℕ) (xk : List ℝ) (f : ℝ) (dfdx g : List ℝ) (dgdx : List (List ℝ)) :
    Run (List ℝ × MMAV) :=
  match (do
    let LU ← asymptotesV o xk
    let L := LU.map Prod.fst ++ o.L.drop o.n
    let U := LU.map Prod.snd ++ o.U.drop o.n
    let P ← mmaSubV o xk L U dfdx g dgdx
    return (L, U, P)) with
  | none => .undefined
  | some (L, U, P) =>
    match ipSolveV o.n o.m P fuel with
    | .undefined => .undefined
    | .running => .running
    | .done st => .done (st.1.x, { o with
        L := L, U := U, previousvalue := f, k := o.k + 1, xkm2 := o.xkm1, xkm1 := xk })

/-- The data members of `CONLIN` (CONLIN.h:31-45). -/
structure CONLINV where
  k : ℕ
  n : ℕ
  m : ℕ
  previousvalue : ℝ
  epsvalue : ℝ
  xmin : List ℝ
  xmax : List ℝ
  a0 : ℝ
  a : List ℝ
  c : List ℝ
  d : List ℝ
  move : ℝ

/-- The constructor (CONLIN.h:54-67). -/
def CONLINV.mk' (n m : ℕ) (a0 : ℝ) (a c d xmin xmax : List ℝ) : CONLINV where
  k := 0
  n := n
  m := m
  previousvalue := 0
  epsvalue := 1.0e-5
  xmin := xmin
  xmax := xmax
  a0 := a0
  a := a
  c := c
  d := d
  move := 0.5

/-- `SetParameters` (CONLIN.h:70-74). -/
def CONLINV.setParameters (o : CONLINV) (move epsvalue : ℝ) : CONLINV := { o with move := move, epsvalue := epsvalue }

/-- The subproblem (CONLIN.h:92-123). -/
def conlinSubV (o : CONLINV) (xk dfdx g : List ℝ) (dgdx : List (List ℝ)) : Option SubV := do
  let alpha ← vecOf o.n fun j => do
    return max (← o.xmin[j]?) ((← xk[j]?) - o.move * ((← o.xmax[j]?) - (← o.xmin[j]?)))
  let beta ← vecOf o.n fun j => do
    return min (← o.xmax[j]?) ((← xk[j]?) + o.move * ((← o.xmax[j]?) - (← o.xmin[j]?)))
  let p0 ← vecOf o.n fun j => do return conlinP (← dfdx[j]?)
  let q0 ← vecOf o.n fun j => do return conlinQ (← dfdx[j]?) (← xk[j]?)
  let p ← tabOf o.m o.n fun i j => do return conlinP (← ent dgdx i j)
  let q ← tabOf o.m o.n fun i j => do return conlinQ (← ent dgdx i j) (← xk[j]?)
  let b ← vecOf o.m fun i => do
    sumFrom o.n (-(← g[i]?)) fun j => do
      return (← ent p i j) * (← xk[j]?) + (← div? (← ent q i j) (← xk[j]?))
  return ⟨conlinBasisV, alpha, beta, p0, q0, p, q, b, o.a0, o.a, o.c, o.d⟩

/-- `UpdateVariables` (CONLIN.h:91-365): the new design and the object. -/
def conlinUpdateV (o : CONLINV) (fuel : ℕ) (xk : List ℝ) (f : ℝ) (dfdx g : List ℝ) (dgdx : List (List ℝ)) :
    Run (List ℝ × CONLINV) :=
  match conlinSubV o xk dfdx g dgdx with
  | none => .undefined
  | some P =>
    match ipSolveV o.n o.m P fuel with
    | .undefined => .undefined
    | .running => .running
    | .done st => .done (st.1.x, { o with previousvalue := f, k := o.k + 1 })

end

end Pansfem
