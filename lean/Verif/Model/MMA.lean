/-
The solvers MMA and CONLIN: /repo/src/Optimize/Solver/MMA.h and CONLIN.h.

* Numbers are real.  A division by zero is undefined (`none`; the code goes on with an infinity or a
  NaN); the divisors of a group of lines are tested together, before the group.
* Vectors of length `n` and `m` are functions on `Fin n` and `Fin m`: the caller has to pass vectors of
  these lengths.  Sums accumulated by loops are written as sums.
* The inner loops of the two solvers differ only in the functions that approximate the objective and
  the constraints; these are a parameter (`Basis`) of one model of the loop.
* The inner loop runs with a bound on the number of passes; `running` means that the bound was
  reached.
-/
import Verif.Model.LU
import Verif.Model.OC

namespace Pansfem

noncomputable section

open Classical

/-- The approximating functions: value, first and second derivative of the function with the
coefficients `p`, `q` in variable `j` at `x`, and the condition that no divisor is zero
(MMA.h:215-243, CONLIN.h:163-191). -/
structure Basis (n : ℕ) where
  val : Fin n → ℝ → ℝ → ℝ → ℝ
  slope : Fin n → ℝ → ℝ → ℝ → ℝ
  curv : Fin n → ℝ → ℝ → ℝ → ℝ
  ok : Fin n → ℝ → Prop

/-- The functions of MMA: `p/(U - x) + q/(x - L)` (MMA.h:243), their derivative (MMA.h:215, 223) and
second derivative (MMA.h:222). -/
def mmaBasis {n : ℕ} (L U : Fin n → ℝ) : Basis n where
  val j p q x := p / (U j - x) + q / (x - L j)
  slope j p q x := p / (U j - x) ^ 2 - q / (x - L j) ^ 2
  curv j p q x := 2 * p / (U j - x) ^ 3 + 2 * q / (x - L j) ^ 3
  ok j x := U j - x ≠ 0 ∧ x - L j ≠ 0

/-- The functions of CONLIN: `p x + q/x` (CONLIN.h:191), their derivative (CONLIN.h:163, 171) and second
derivative (CONLIN.h:170). -/
def conlinBasis (n : ℕ) : Basis n where
  val _ p q x := p * x + q / x
  slope _ p q x := p - q / x ^ 2
  curv _ _ q x := 2 * q / x ^ 3
  ok _ x := x ≠ 0

/-- The subproblem: the local variables and data members that the inner loop reads
(MMA.h:145-175, CONLIN.h:93-123). -/
structure Sub (n m : ℕ) where
  basis : Basis n
  alpha : Fin n → ℝ
  beta : Fin n → ℝ
  p0 : Fin n → ℝ
  q0 : Fin n → ℝ
  p : Fin m → Fin n → ℝ
  q : Fin m → Fin n → ℝ
  b : Fin m → ℝ
  a0 : ℝ
  a : Fin m → ℝ
  c : Fin m → ℝ
  d : Fin m → ℝ

/-- The variables of the inner loop (MMA.h:179-188, CONLIN.h:127-136); also a direction
(MMA.h:250-258, CONLIN.h:198-206). -/
structure Pt (n m : ℕ) where
  x : Fin n → ℝ
  y : Fin m → ℝ
  z : ℝ
  lam : Fin m → ℝ
  gsi : Fin n → ℝ
  ita : Fin n → ℝ
  mu : Fin m → ℝ
  zeta : ℝ
  s : Fin m → ℝ

/-- A step of length `tau` (MMA.h:372-383, CONLIN.h:320-331). -/
def Pt.step {n m : ℕ} (w d : Pt n m) (tau : ℝ) : Pt n m where
  x j := w.x j + tau * d.x j
  y i := w.y i + tau * d.y i
  z := w.z + tau * d.z
  lam i := w.lam i + tau * d.lam i
  gsi j := w.gsi j + tau * d.gsi j
  ita j := w.ita j + tau * d.ita j
  mu i := w.mu i + tau * d.mu i
  zeta := w.zeta + tau * d.zeta
  s i := w.s i + tau * d.s i

section Inner
variable {n m : ℕ} (P : Sub n m)

/-- The start of the inner loop (MMA.h:178-197, CONLIN.h:126-145). -/
def ipStart : Option (Pt n m) :=
  let x : Fin n → ℝ := fun j => 0.5 * (P.alpha j + P.beta j)
  if ∀ j, x j - P.alpha j ≠ 0 ∧ P.beta j - x j ≠ 0 then
    some {
      x := x
      y := fun _ => 1
      z := 1
      lam := fun _ => 1
      gsi := fun j => max 1 (1 / (x j - P.alpha j))
      ita := fun j => max 1 (1 / (P.beta j - x j))
      mu := fun i => max 1 (0.5 * P.c i)
      zeta := 1
      s := fun _ => 1 }
  else none

/-- `plambda` (MMA.h:201-210, CONLIN.h:149-158). -/
def plambda (lam : Fin m → ℝ) (j : Fin n) : ℝ := P.p0 j + ∑ i, lam i * P.p i j

/-- `qlambda` (MMA.h:201-210, CONLIN.h:149-158). -/
def qlambda (lam : Fin m → ℝ) (j : Fin n) : ℝ := P.q0 j + ∑ i, lam i * P.q i j

/-- `G` (MMA.h:212-217, CONLIN.h:160-165). -/
def ipG (w : Pt n m) (i : Fin m) (j : Fin n) : ℝ := P.basis.slope j (P.p i j) (P.q i j) (w.x j)

/-- `Dx` (MMA.h:219-222, CONLIN.h:167-170). -/
def ipDx (w : Pt n m) (j : Fin n) : ℝ :=
  P.basis.curv j (plambda P w.lam j) (qlambda P w.lam j) (w.x j) + w.gsi j / (w.x j - P.alpha j) +
    w.ita j / (P.beta j - w.x j)

/-- `deltilx` (MMA.h:223, CONLIN.h:171). -/
def ipDelx (w : Pt n m) (eps : ℝ) (j : Fin n) : ℝ :=
  P.basis.slope j (plambda P w.lam j) (qlambda P w.lam j) (w.x j) - eps / (w.x j - P.alpha j) +
    eps / (P.beta j - w.x j)

/-- `Dy` (MMA.h:230, CONLIN.h:178). -/
def ipDy (w : Pt n m) (i : Fin m) : ℝ := P.d i + w.mu i / w.y i

/-- `deltily` (MMA.h:232, CONLIN.h:180). -/
def ipDely (w : Pt n m) (eps : ℝ) (i : Fin m) : ℝ := P.c i + P.d i * w.y i - w.lam i - eps / w.y i

/-- `deltilz` (MMA.h:235, CONLIN.h:183). -/
def ipDelz (w : Pt n m) (eps : ℝ) : ℝ := P.a0 - eps / w.z - ∑ i, w.lam i * P.a i

/-- `deltillambda` (MMA.h:241-244, CONLIN.h:189-192). -/
def ipDellam (w : Pt n m) (eps : ℝ) (i : Fin m) : ℝ :=
  -P.a i * w.z - w.y i - P.b i + eps / w.lam i +
    ∑ j, P.basis.val j (P.p i j) (P.q i j) (w.x j)

/-- `Dlambday` with `Dlambda` (MMA.h:231, 245, CONLIN.h:179, 193). -/
def ipDly (w : Pt n m) (i : Fin m) : ℝ := w.s i / w.lam i + 1 / ipDy P w i

/-- `deltillambday` (MMA.h:246, CONLIN.h:194). -/
def ipDelly (w : Pt n m) (eps : ℝ) (i : Fin m) : ℝ :=
  ipDellam P w eps i + ipDely P w eps i / ipDy P w i

/-- A matrix as the array that `solvels` reads (MMA.h:465, CONLIN.h:411). -/
def arr2 {k : ℕ} (A : Matrix (Fin k) (Fin k) ℝ) (i j : ℕ) : ℝ :=
  if h : i < k ∧ j < k then A ⟨i, h.1⟩ ⟨j, h.2⟩ else 0

/-- A vector as the array that `solvels` reads (MMA.h:465, CONLIN.h:411). -/
def arr1 {k : ℕ} (b : Fin k → ℝ) (i : ℕ) : ℝ := if h : i < k then b ⟨i, h⟩ else 0

/-- `A` for more variables than constraints (MMA.h:261-272, CONLIN.h:209-220). -/
def dualMatrix (w : Pt n m) : Matrix (Fin (m + 1)) (Fin (m + 1)) ℝ := fun ii jj =>
  Fin.lastCases (motive := fun _ => ℝ)
    (Fin.lastCases (motive := fun _ => ℝ) (-w.zeta / w.z) (fun j => P.a j) jj)
    (fun i => Fin.lastCases (motive := fun _ => ℝ) (P.a i)
      (fun j => (∑ k, ipG P w i k * ipG P w j k / ipDx P w k) + if i = j then ipDly P w i else 0) jj) ii

/-- `B` for more variables than constraints (MMA.h:273-280, CONLIN.h:221-228). -/
def dualRhs (w : Pt n m) (eps : ℝ) (ii : Fin (m + 1)) : ℝ :=
  Fin.lastCases (motive := fun _ => ℝ) (ipDelz P w eps)
    (fun i => ipDelly P w eps i - ∑ j, ipG P w i j * ipDelx P w eps j / ipDx P w j) ii

/-- `A` otherwise (MMA.h:293-307, CONLIN.h:241-255).  The corner is increased inside the loop over
`ii`, once for every variable. -/
def primalMatrix (w : Pt n m) : Matrix (Fin (n + 1)) (Fin (n + 1)) ℝ := fun ii jj =>
  Fin.lastCases (motive := fun _ => ℝ)
    (Fin.lastCases (motive := fun _ => ℝ)
      ((∑ _ii : Fin n, ∑ k, P.a k * P.a k / ipDly P w k) + w.zeta / w.z)
      (fun j => -∑ k, ipG P w k j * P.a k / ipDly P w k) jj)
    (fun i => Fin.lastCases (motive := fun _ => ℝ) (-∑ k, ipG P w k i * P.a k / ipDly P w k)
      (fun j => (∑ k, ipG P w k i * ipG P w k j / ipDly P w k) + if i = j then ipDx P w i else 0) jj) ii

/-- `B` otherwise (MMA.h:308-318, CONLIN.h:256-266). -/
def primalRhs (w : Pt n m) (eps : ℝ) (ii : Fin (n + 1)) : ℝ :=
  Fin.lastCases (motive := fun _ => ℝ)
    (-ipDelz P w eps + ∑ k, P.a k * ipDelly P w eps k / ipDly P w k)
    (fun j => -ipDelx P w eps j - ∑ k, ipG P w k j * ipDelly P w eps k / ipDly P w k) ii

/-- The divisors of the coefficients (MMA.h:201-247, CONLIN.h:149-195), of the elimination
(MMA.h:264-341, CONLIN.h:212-289) are not zero. -/
def Divisible (w : Pt n m) : Prop :=
  (∀ j, P.basis.ok j (w.x j) ∧ w.x j - P.alpha j ≠ 0 ∧ P.beta j - w.x j ≠ 0 ∧ ipDx P w j ≠ 0) ∧
  (∀ i, w.y i ≠ 0 ∧ w.lam i ≠ 0 ∧ ipDy P w i ≠ 0 ∧ ipDly P w i ≠ 0) ∧ w.z ≠ 0

/-- `dx`, `dlambda` and `dz` (MMA.h:260-330, CONLIN.h:208-278). -/
def reducedDirection (w : Pt n m) (eps : ℝ) : Option ((Fin n → ℝ) × (Fin m → ℝ) × ℝ) :=
  if m < n then do
    let v ← solvels (m + 1) (arr2 (dualMatrix P w)) (arr1 (dualRhs P w eps))
    let dlam : Fin m → ℝ := fun i => v i
    return (fun j => -ipDelx P w eps j / ipDx P w j - ∑ i, ipG P w i j * dlam i / ipDx P w j, dlam, v m)
  else do
    let v ← solvels (n + 1) (arr2 (primalMatrix P w)) (arr1 (primalRhs P w eps))
    let dx : Fin n → ℝ := fun j => v j
    return (dx, fun i => -P.a i * v n / ipDly P w i + ipDelly P w eps i / ipDly P w i +
      ∑ j, ipG P w i j * dx j / ipDly P w i, v n)

/-- The other components of the direction (MMA.h:332-343, CONLIN.h:280-291). -/
def expandDirection (w : Pt n m) (eps : ℝ) (dx : Fin n → ℝ) (dlam : Fin m → ℝ) (dz : ℝ) : Pt n m :=
  let dy : Fin m → ℝ := fun i => dlam i / ipDy P w i - ipDely P w eps i / ipDy P w i
  { x := dx
    y := dy
    z := dz
    lam := dlam
    gsi := fun j => -w.gsi j * dx j / (w.x j - P.alpha j) - w.gsi j + eps / (w.x j - P.alpha j)
    ita := fun j => w.ita j * dx j / (P.beta j - w.x j) - w.ita j + eps / (P.beta j - w.x j)
    mu := fun i => -w.mu i * dy i / w.y i - w.mu i + eps / w.y i
    zeta := -w.zeta * dz / w.z - w.zeta + eps / w.z
    s := fun i => -w.s i * dlam i / w.lam i - w.s i + eps / w.lam i }

/-- The Newton direction (MMA.h:200-343, CONLIN.h:148-291). -/
def newton (w : Pt n m) (eps : ℝ) : Option (Pt n m) :=
  if Divisible P w then do
    let r ← reducedDirection P w eps
    return expandDirection P w eps r.1 r.2.1 r.2.2
  else none

/-- `txmaxj` (MMA.h:348, CONLIN.h:296). -/
def txmaxj (w d : Pt n m) (j : Fin n) : ℝ :=
  max (max (-1.01 * d.x j / (w.x j - P.alpha j)) (1.01 * d.x j / (P.beta j - w.x j)))
    (max (-1.01 * d.gsi j / w.gsi j) (-1.01 * d.ita j / w.ita j))

/-- `tymaxi` (MMA.h:355, CONLIN.h:303). -/
def tymaxi {n m : ℕ} (w d : Pt n m) (i : Fin m) : ℝ :=
  max (max (-1.01 * d.y i / w.y i) (-1.01 * d.lam i / w.lam i))
    (max (-1.01 * d.mu i / w.mu i) (-1.01 * d.s i / w.s i))

/-- A maximum found by a loop that starts at zero (MMA.h:346-352, 353-359, CONLIN.h:294-300,
301-307). -/
def loopMax {k : ℕ} (f : Fin k → ℝ) : ℝ :=
  (List.finRange k).foldl (fun t i => if t < f i then f i else t) 0

/-- The divisors of the step length are not zero (MMA.h:345-360, CONLIN.h:293-308). -/
def StepDivisible (w : Pt n m) : Prop :=
  (∀ j, w.x j - P.alpha j ≠ 0 ∧ P.beta j - w.x j ≠ 0 ∧ w.gsi j ≠ 0 ∧ w.ita j ≠ 0) ∧
  (∀ i, w.y i ≠ 0 ∧ w.lam i ≠ 0 ∧ w.mu i ≠ 0 ∧ w.s i ≠ 0) ∧ w.z ≠ 0 ∧ w.zeta ≠ 0

/-- The first step length (MMA.h:345-360, CONLIN.h:293-308). -/
def stepLength (w d : Pt n m) : Option ℝ :=
  if StepDivisible P w then
    some (1 / max (max (max 1 (loopMax (txmaxj P w d))) (loopMax (tymaxi w d)))
      (max (-1.01 * d.z / w.z) (-1.01 * d.zeta / w.zeta)))
  else none

/-- The sum of squares of `KKTNorm` (MMA.h:425-458, CONLIN.h:371-404). -/
def kktSquare (w : Pt n m) (eps : ℝ) : ℝ :=
  (∑ j, ((P.basis.slope j (plambda P w.lam j) (qlambda P w.lam j) (w.x j) - w.gsi j + w.ita j) ^ 2 +
      (w.gsi j * (w.x j - P.alpha j) - eps) ^ 2 + (w.ita j * (P.beta j - w.x j) - eps) ^ 2)) +
    (∑ i, ((P.c i + P.d i * w.y i - w.lam i - w.mu i) ^ 2 +
      ((∑ j, P.basis.val j (P.p i j) (P.q i j) (w.x j)) - P.a i * w.z - w.y i + w.s i - P.b i) ^ 2 +
      (w.mu i * w.y i - eps) ^ 2 + (w.lam i * w.s i - eps) ^ 2)) +
    (P.a0 - w.zeta - ∑ i, w.lam i * P.a i) ^ 2 + (w.zeta * w.z - eps) ^ 2

/-- `KKTNorm` (MMA.h:422-461, CONLIN.h:368-407). -/
def kktNorm (w : Pt n m) (eps : ℝ) : Option ℝ :=
  if ∀ j, P.basis.ok j (w.x j) then some (Real.sqrt (kktSquare P w eps)) else none

/-- The backtracking loop (MMA.h:371-391, CONLIN.h:319-339) with `k + 1` passes left.  When all passes
fail, the last trial point is taken. -/
def backtrack (w d : Pt n m) (eps norm0 : ℝ) : ℕ → ℝ → Option (Pt n m)
  | k, tau => do
    let v ← kktNorm P (w.step d tau) eps
    if v < norm0 then return w.step d tau
    else match k with
      | 0 => return w.step d tau
      | k + 1 => backtrack w d eps norm0 k (tau * 0.5)

/-- One pass of the inner loop (MMA.h:199-411, CONLIN.h:147-359). -/
def ipBody (st : Pt n m × ℝ) : Option (Pt n m × ℝ) := do
  let d ← newton P st.1 st.2
  let tau ← stepLength P st.1 d
  let norm0 ← kktNorm P st.1 st.2
  let w ← backtrack P st.1 d st.2 norm0 49 tau
  let v ← kktNorm P w st.2
  return (w, if v < 0.9 * st.2 then st.2 * 0.1 else st.2 * 1.0)

/-- The inner loop (MMA.h:199-411, CONLIN.h:147-359). -/
def ipLoop : ℕ → Pt n m × ℝ → Run (Pt n m × ℝ)
  | fuel, st =>
    if 1.0e-7 < st.2 then
      match fuel with
      | 0 => .running
      | fuel + 1 =>
        match ipBody P st with
        | none => .undefined
        | some st' => ipLoop fuel st'
    else .done st

/-- The inner loop from its start (MMA.h:178-411, CONLIN.h:126-359). -/
def ipSolve (fuel : ℕ) : Run (Pt n m × ℝ) :=
  match ipStart P with
  | none => .undefined
  | some w => ipLoop P fuel (w, 1)

end Inner

/-! ### MMA -/

/-- The data members of `MMA` (MMA.h:31-54). -/
structure MMA (n m : ℕ) where
  k : ℕ
  previousvalue : ℝ
  epsvalue : ℝ
  xmin : Fin n → ℝ
  xmax : Fin n → ℝ
  xkm1 : Fin n → ℝ
  xkm2 : Fin n → ℝ
  a0 : ℝ
  a : Fin m → ℝ
  c : Fin m → ℝ
  d : Fin m → ℝ
  raa0 : ℝ
  albefa : ℝ
  move : ℝ
  asyinit : ℝ
  asydecr : ℝ
  asyincr : ℝ
  L : Fin n → ℝ
  U : Fin n → ℝ

/-- The constructor (MMA.h:64-88). -/
def MMA.mk' {n m : ℕ} (a0 : ℝ) (a c d : Fin m → ℝ) (xmin xmax : Fin n → ℝ) : MMA n m where
  k := 0
  previousvalue := 0
  epsvalue := 1.0e-5
  xmin := xmin
  xmax := xmax
  xkm1 := fun _ => 0
  xkm2 := fun _ => 0
  a0 := a0
  a := a
  c := c
  d := d
  raa0 := 1.0e-5
  albefa := 0.1
  move := 0.5
  asyinit := 0.5
  asydecr := 0.7
  asyincr := 1.2
  L := fun _ => 0
  U := fun _ => 0

/-- `SetParameters` (MMA.h:92-100). -/
def MMA.setParameters {n m : ℕ} (o : MMA n m) (raa0 albefa move asyinit asydecr asyincr epsvalue : ℝ) :
    MMA n m :=
  { o with raa0 := raa0, albefa := albefa, move := move, asyinit := asyinit, asydecr := asydecr,
           asyincr := asyincr, epsvalue := epsvalue }

section Outer
variable {n m : ℕ}

/-- The factor of the old distance to the asymptotes (MMA.h:128-138). -/
def asyFactor (o : MMA n m) (xk : Fin n → ℝ) (j : Fin n) : ℝ :=
  let tmp := (xk j - o.xkm1 j) * (o.xkm1 j - o.xkm2 j)
  if tmp < 0 then o.asydecr else if 0 < tmp then o.asyincr else 1

/-- The lower asymptote (MMA.h:119-142). -/
def asyL (o : MMA n m) (xk : Fin n → ℝ) (j : Fin n) : ℝ :=
  let r := o.xmax j - o.xmin j
  let l := if o.k < 2 then xk j - o.asyinit * r else xk j - asyFactor o xk j * (o.xkm1 j - o.L j)
  min (max (xk j - 10 * r) l) (xk j - 0.01 * r)

/-- The upper asymptote (MMA.h:119-142). -/
def asyU (o : MMA n m) (xk : Fin n → ℝ) (j : Fin n) : ℝ :=
  let r := o.xmax j - o.xmin j
  let u := if o.k < 2 then xk j + o.asyinit * r else xk j + asyFactor o xk j * (o.U j - o.xkm1 j)
  min (max (xk j + 0.01 * r) u) (xk j + 10 * r)

/-- `alpha` (MMA.h:148). -/
def mmaAlpha (o : MMA n m) (xk : Fin n → ℝ) (j : Fin n) : ℝ :=
  max (max (o.xmin j) (asyL o xk j + o.albefa * (xk j - asyL o xk j)))
    (xk j - o.move * (o.xmax j - o.xmin j))

/-- `beta` (MMA.h:149). -/
def mmaBeta (o : MMA n m) (xk : Fin n → ℝ) (j : Fin n) : ℝ :=
  min (min (o.xmax j) (asyU o xk j - o.albefa * (asyU o xk j - xk j)))
    (xk j + o.move * (o.xmax j - o.xmin j))

/-- `p0` and `p` (MMA.h:156-158, 169-171) for the derivative `df`. -/
def mmaP (o : MMA n m) (xk : Fin n → ℝ) (df : ℝ) (j : Fin n) : ℝ :=
  (asyU o xk j - xk j) ^ 2 *
    (1.001 * max df 0 + 0.001 * max (-df) 0 + o.raa0 / (o.xmax j - o.xmin j))

/-- `q0` and `q` (MMA.h:159, 172). -/
def mmaQ (o : MMA n m) (xk : Fin n → ℝ) (df : ℝ) (j : Fin n) : ℝ :=
  (xk j - asyL o xk j) ^ 2 *
    (0.001 * max df 0 + 1.001 * max (-df) 0 + o.raa0 / (o.xmax j - o.xmin j))

/-- The subproblem (MMA.h:118-175). -/
def mmaSub (o : MMA n m) (xk : Fin n → ℝ) (dfdx : Fin n → ℝ) (g : Fin m → ℝ)
    (dgdx : Fin m → Fin n → ℝ) : Option (Sub n m) :=
  if ∀ j, o.xmax j - o.xmin j ≠ 0 ∧ asyU o xk j - xk j ≠ 0 ∧ xk j - asyL o xk j ≠ 0 then
    some {
      basis := mmaBasis (asyL o xk) (asyU o xk)
      alpha := mmaAlpha o xk
      beta := mmaBeta o xk
      p0 := fun j => mmaP o xk (dfdx j) j
      q0 := fun j => mmaQ o xk (dfdx j) j
      p := fun i j => mmaP o xk (dgdx i j) j
      q := fun i j => mmaQ o xk (dgdx i j) j
      b := fun i => -g i + ∑ j, (mmaP o xk (dgdx i j) j / (asyU o xk j - xk j) +
        mmaQ o xk (dgdx i j) j / (xk j - asyL o xk j))
      a0 := o.a0
      a := o.a
      c := o.c
      d := o.d }
  else none

/-- `UpdateVariables` (MMA.h:117-419): the new design and the object. -/
def mmaUpdate (o : MMA n m) (fuel : ℕ) (xk : Fin n → ℝ) (f : ℝ) (dfdx : Fin n → ℝ) (g : Fin m → ℝ)
    (dgdx : Fin m → Fin n → ℝ) : Run ((Fin n → ℝ) × MMA n m) :=
  match mmaSub o xk dfdx g dgdx with
  | none => .undefined
  | some P =>
    match ipSolve P fuel with
    | .undefined => .undefined
    | .running => .running
    | .done st => .done (st.1.x, { o with
        L := asyL o xk, U := asyU o xk, previousvalue := f, k := o.k + 1, xkm2 := o.xkm1, xkm1 := xk })

end Outer

/-! ### CONLIN -/

/-- The data members of `CONLIN` (CONLIN.h:31-45). -/
structure CONLIN (n m : ℕ) where
  k : ℕ
  previousvalue : ℝ
  epsvalue : ℝ
  xmin : Fin n → ℝ
  xmax : Fin n → ℝ
  a0 : ℝ
  a : Fin m → ℝ
  c : Fin m → ℝ
  d : Fin m → ℝ
  move : ℝ

/-- The constructor (CONLIN.h:54-67). -/
def CONLIN.mk' {n m : ℕ} (a0 : ℝ) (a c d : Fin m → ℝ) (xmin xmax : Fin n → ℝ) : CONLIN n m where
  k := 0
  previousvalue := 0
  epsvalue := 1.0e-5
  xmin := xmin
  xmax := xmax
  a0 := a0
  a := a
  c := c
  d := d
  move := 0.5

/-- `SetParameters` (CONLIN.h:70-74). -/
def CONLIN.setParameters {n m : ℕ} (o : CONLIN n m) (move epsvalue : ℝ) : CONLIN n m :=
  { o with move := move, epsvalue := epsvalue }

section Conlin
variable {n m : ℕ}

/-- `p0` and `p` (CONLIN.h:104, 106, 117, 119). -/
def conlinP (df : ℝ) : ℝ := max df 0

/-- `q0` and `q` (CONLIN.h:105, 107, 118, 120). -/
def conlinQ (df xk : ℝ) : ℝ := max (-df) 0 * xk ^ 2

/-- The subproblem (CONLIN.h:92-123); the divisions by the design are those of `b`. -/
def conlinSub (o : CONLIN n m) (xk : Fin n → ℝ) (dfdx : Fin n → ℝ) (g : Fin m → ℝ)
    (dgdx : Fin m → Fin n → ℝ) : Option (Sub n m) :=
  if ∀ (_i : Fin m) (j : Fin n), xk j ≠ 0 then
    some {
      basis := conlinBasis n
      alpha := fun j => max (o.xmin j) (xk j - o.move * (o.xmax j - o.xmin j))
      beta := fun j => min (o.xmax j) (xk j + o.move * (o.xmax j - o.xmin j))
      p0 := fun j => conlinP (dfdx j)
      q0 := fun j => conlinQ (dfdx j) (xk j)
      p := fun i j => conlinP (dgdx i j)
      q := fun i j => conlinQ (dgdx i j) (xk j)
      b := fun i => -g i + ∑ j, (conlinP (dgdx i j) * xk j + conlinQ (dgdx i j) (xk j) / xk j)
      a0 := o.a0
      a := o.a
      c := o.c
      d := o.d }
  else none

/-- `UpdateVariables` (CONLIN.h:91-365): the new design and the object. -/
def conlinUpdate (o : CONLIN n m) (fuel : ℕ) (xk : Fin n → ℝ) (f : ℝ) (dfdx : Fin n → ℝ)
    (g : Fin m → ℝ) (dgdx : Fin m → Fin n → ℝ) : Run ((Fin n → ℝ) × CONLIN n m) :=
  match conlinSub o xk dfdx g dgdx with
  | none => .undefined
  | some P =>
    match ipSolve P fuel with
    | .undefined => .undefined
    | .running => .running
    | .done st => .done (st.1.x, { o with previousvalue := f, k := o.k + 1 })

end Conlin

end

end Pansfem
