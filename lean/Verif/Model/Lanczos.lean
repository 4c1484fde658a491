/-
Lanczos eigenvalue solvers.

Models /repo/src/LinearAlgebra/Solvers/Lanczos.h over the real numbers.

* The arrays `alpha`, `beta` and the list `q` of vectors are functions of the subscript; the loop
  bounds keep the subscripts inside.
* Division by zero is undefined: `none`.
-/
import Verif.Model.Krylov
import Verif.Model.Loops

namespace Pansfem

variable {n : ℕ}

open scoped Classical in
/-- `xexda` and `xeyda` (Lanczos.h:20-24, 29-35). -/
noncomputable def vdiv (v : Fin n → ℝ) (a : ℝ) : Option (Fin n → ℝ) :=
  if a = 0 ∧ n ≠ 0 then none else some fun i => v i / a

/-- Variables `q`, `alpha`, `beta` of the Lanczos process (Lanczos.h:137-139). -/
structure LanState (n : ℕ) where
  q : ℕ → Fin n → ℝ
  alpha : ℕ → ℝ
  beta : ℕ → ℝ

/-- Assignment of the next vector, skipped in the last step (Lanczos.h:152-154). -/
noncomputable def storeNext (m k : ℕ) (q : ℕ → Fin n → ℝ) (p : Fin n → ℝ) (beta : ℝ) :
    Option (ℕ → Fin n → ℝ) :=
  if k ≠ m - 1 then (vdiv p beta).map fun v => upd1 q (k + 1) v else some q

/-- One step of the Lanczos process (Lanczos.h:145-154 and 221-230); `op` is the product with the
matrix or the solution of a system with it. -/
noncomputable def lanStep (op : (Fin n → ℝ) → Option (Fin n → ℝ)) (m k : ℕ) (s : LanState n) :
    Option (LanState n) := do
  let p ← op (s.q k)
  let p := if k ≠ 0 then p + (-s.beta (k - 1)) • s.q (k - 1) else p
  let alpha := s.q k ⬝ᵥ p
  let p := p + (-alpha) • s.q k
  let beta := vnorm p
  let q ← storeNext m k s.q p beta
  return ⟨q, upd1 s.alpha k alpha, upd1 s.beta k beta⟩

/-- The Lanczos process of `m` steps started at the normalised vector `d` (Lanczos.h:140-155). -/
noncomputable def lanczos (op : (Fin n → ℝ) → Option (Fin n → ℝ)) (d : Fin n → ℝ) (m : ℕ) :
    Option (LanState n) := do
  let q0 ← vdiv d (vnorm d)
  forUpM 0 m (lanStep op m) ⟨upd1 (fun _ => 0) 0 q0, fun _ => 0, fun _ => 0⟩

/-- The process inside `Lanczos` (Lanczos.h:133-155). -/
noncomputable def lanczosProcess (A : CSR ℝ) (m : ℕ) : Option (LanState n) := do
  lanczos (csrMul A) (← getDiagonal n A) m

/-- The loop of `RestartLanczos` that removes the components along older vectors
(Lanczos.h:180-182).  The bound `k - 2` is an `int`, so the loop is empty for `k < 3`. -/
noncomputable def reorth (k : ℕ) (q : ℕ → Fin n → ℝ) (p : Fin n → ℝ) : Fin n → ℝ :=
  forUp 0 (k - 2) (fun i p => p + (-(p ⬝ᵥ q i)) • q i) p

/-- One step of `RestartLanczos` (Lanczos.h:179-191). -/
noncomputable def reLanStep (op : (Fin n → ℝ) → Option (Fin n → ℝ)) (m k : ℕ) (s : LanState n) :
    Option (LanState n) := do
  let p ← op (s.q k)
  let p := reorth k s.q p
  let p := if k ≠ 0 then p + (-s.beta (k - 1)) • s.q (k - 1) else p
  let alpha := s.q k ⬝ᵥ p
  let p := p + (-alpha) • s.q k
  let beta := vnorm p
  let q ← storeNext m k s.q p beta
  return ⟨q, upd1 s.alpha k alpha, upd1 s.beta k beta⟩

/-- The process inside `RestartLanczos` (Lanczos.h:167-192). -/
noncomputable def restartLanczosProcess (A : CSR ℝ) (m : ℕ) : Option (LanState n) := do
  let d ← getDiagonal n A
  let q0 ← vdiv d (vnorm d)
  forUpM 0 m (reLanStep (csrMul A) m) ⟨upd1 (fun _ => 0) 0 q0, fun _ => 0, fun _ => 0⟩

/-- State of the process for the general problem: `p` is a variable of the loop (Lanczos.h:250-256).
-/
structure GLanState (n : ℕ) extends LanState n where
  p : Fin n → ℝ

/-- `xeyda(p, r, beta[k])` (Lanczos.h:269, 313).  The code also divides in the last step, whose `p` is
never read; a zero divisor there is no failure, and the model leaves `p` alone. -/
noncomputable def nextImage (m k : ℕ) (p r : Fin n → ℝ) (beta : ℝ) : Option (Fin n → ℝ) :=
  if k ≠ m - 1 then vdiv r beta else some p

/-- One step of `GeneralShiftedInvertLanczos` (Lanczos.h:259-272); `solve` is `ScalingCG(A, ·)`, `B`
the product with the second matrix. -/
noncomputable def gLanStep (solve B : (Fin n → ℝ) → Option (Fin n → ℝ)) (m k : ℕ)
    (st : GLanState n) : Option (GLanState n) := do
  let s ← solve st.p
  let s := if k ≠ 0 then s + (-st.beta (k - 1)) • st.q (k - 1) else s
  let alpha := st.p ⬝ᵥ s
  let s := s + (-alpha) • st.q k
  let r ← B s
  let beta := Real.sqrt (r ⬝ᵥ s)
  let p ← nextImage m k st.p r beta
  let q ← storeNext m k st.q s beta
  return ⟨⟨q, upd1 st.alpha k alpha, upd1 st.beta k beta⟩, p⟩

/-- The process inside `GeneralShiftedInvertLanczos` (Lanczos.h:245-273) started from the diagonal
`d` of the shifted matrix. -/
noncomputable def gLanczos (solve B : (Fin n → ℝ) → Option (Fin n → ℝ)) (d : Fin n → ℝ) (m : ℕ) :
    Option (GLanState n) := do
  let q0 ← vdiv d (vnorm d)
  let p ← B q0
  forUpM 0 m (gLanStep solve B m) ⟨⟨upd1 (fun _ => 0) 0 q0, fun _ => 0, fun _ => 0⟩, p⟩

/-! ### Shifted matrices and the complete processes -/

/-- The matrix `I` with the shift on its diagonal (Lanczos.h:206-209). -/
noncomputable def shiftDiagonal (r c : ℕ) (sigma : ℝ) : Option (LIL ℝ) :=
  (List.range r).foldlM (fun (I : LIL ℝ) (i : ℕ) => (I.set i i sigma).map Prod.fst) (LIL.new r c)

/-- `A = _A - CSR(I)` (Lanczos.h:210). -/
noncomputable def shiftMatrix (A : CSR ℝ) (sigma : ℝ) : Option (CSR ℝ) := do
  let I ← shiftDiagonal A.rows A.cols sigma
  let S ← CSR.ofLIL I
  CSR.sub A S.1

/-- `A = _A - _B*_sigma` (Lanczos.h:247, 287). -/
noncomputable def shiftPencil (A B : CSR ℝ) (sigma : ℝ) : Option (CSR ℝ) := CSR.sub A (B.smul sigma)

/-- `ScalingCG(A, ., itrmax, 1.0e-10)` (Lanczos.h:222, 260, 300): the vector, whether it converged or not. -/
noncomputable def cgSolve (A : CSR ℝ) (itrmax : ℕ) (v : Fin n → ℝ) : Option (Fin n → ℝ) :=
  (scalingCG A v itrmax 1.0e-10).map Prod.fst

/-- The process inside `ShiftedInvertLanczos` (Lanczos.h:204-232). -/
noncomputable def shiftedProcess (A : CSR ℝ) (m : ℕ) (sigma : ℝ) : Option (LanState n) := do
  let A' ← shiftMatrix A sigma
  lanczos (cgSolve A' (max A.rows 1000)) (← getDiagonal n A') m

/-- The process inside `GeneralShiftedInvertLanczos` (Lanczos.h:245-272). -/
noncomputable def generalProcess (A B : CSR ℝ) (m : ℕ) (sigma : ℝ) : Option (GLanState n) := do
  let A' ← shiftPencil A B sigma
  gLanczos (cgSolve A' (max A.rows 10000)) (csrMul B) (← getDiagonal n A') m

/-- The loop over older vectors in `GeneralRestartShiftedInvertLanczos` (Lanczos.h:301-304). -/
noncomputable def gReorth (B : (Fin n → ℝ) → Option (Fin n → ℝ)) (k : ℕ) (q : ℕ → Fin n → ℝ)
    (s : Fin n → ℝ) : Option (Fin n → ℝ) :=
  forUpM 0 (k - 2) (fun i s => do
    let Bq ← B (q i)
    return s + (-(s ⬝ᵥ Bq)) • Bq) s

/-- One step of `GeneralRestartShiftedInvertLanczos` (Lanczos.h:300-316). -/
noncomputable def gReStep (solve B : (Fin n → ℝ) → Option (Fin n → ℝ)) (m k : ℕ)
    (st : GLanState n) : Option (GLanState n) := do
  let s ← solve st.p
  let s ← gReorth B k st.q s
  let s := if k ≠ 0 then s + (-st.beta (k - 1)) • st.q (k - 1) else s
  let alpha := st.p ⬝ᵥ s
  let s := s + (-alpha) • st.q k
  let r ← B s
  let beta := Real.sqrt (r ⬝ᵥ s)
  let p ← nextImage m k st.p r beta
  let q ← storeNext m k st.q s beta
  return ⟨⟨q, upd1 st.alpha k alpha, upd1 st.beta k beta⟩, p⟩

/-- The loop of `GeneralRestartShiftedInvertLanczos` from the diagonal `d` of the shifted matrix
(Lanczos.h:293-317). -/
noncomputable def gReLanczos (solve B : (Fin n → ℝ) → Option (Fin n → ℝ)) (d : Fin n → ℝ) (m : ℕ) :
    Option (GLanState n) := do
  let q0 ← vdiv d (vnorm d)
  let p ← B q0
  forUpM 0 m (gReStep solve B m) ⟨⟨upd1 (fun _ => 0) 0 q0, fun _ => 0, fun _ => 0⟩, p⟩

/-! ### Tridiagonal problem -/

/-- The elimination loop of `InversePowerMethod` (Lanczos.h:95-100) on the arrays `p`, `q`. -/
noncomputable def thomasFwd (alpha beta : ℕ → ℝ) (lam : ℝ) (m : ℕ) (y : ℕ → ℝ)
    (s : (ℕ → ℝ) × (ℕ → ℝ)) : Option ((ℕ → ℝ) × (ℕ → ℝ)) := do
  let p0 ← sdivide (-beta 0) (alpha 0 - lam)
  let q0 ← sdivide (y 0) (alpha 0 - lam)
  forUpM 1 m (fun i s => do
    let d := (alpha i - lam) + beta (i - 1) * s.1 (i - 1)
    let pi ← sdivide (-beta i) d
    let qi ← sdivide (y i - beta (i - 1) * s.2 (i - 1)) d
    return (upd1 s.1 i pi, upd1 s.2 i qi)) (upd1 s.1 0 p0, upd1 s.2 0 q0)

/-- The back substitution (Lanczos.h:102-105). -/
noncomputable def thomasBwd (m : ℕ) (s : (ℕ → ℝ) × (ℕ → ℝ)) (y : ℕ → ℝ) : ℕ → ℝ :=
  forDown 0 (m - 1) (fun i y => upd1 y i (s.1 i * y (i + 1) + s.2 i)) (upd1 y (m - 1) (s.2 (m - 1)))

open scoped Classical in
/-- One iteration of `InversePowerMethod` (Lanczos.h:93-109) on `yk`, `p`, `q`. -/
noncomputable def invPowStep (alpha beta : ℕ → ℝ) (lam : ℝ) (m : ℕ)
    (st : (ℕ → ℝ) × ((ℕ → ℝ) × (ℕ → ℝ))) : Option ((ℕ → ℝ) × ((ℕ → ℝ) × (ℕ → ℝ))) := do
  let s ← thomasFwd alpha beta lam m st.1 st.2
  let y := thomasBwd m s st.1
  let nrm := Real.sqrt (∑ i ∈ Finset.range m, y i * y i)
  if nrm = 0 then none else return (fun i => y i / nrm, s)

/-- `InversePowerMethod` (Lanczos.h:86-113) with the iteration count `10000` as a parameter. -/
noncomputable def invPow (alpha beta : ℕ → ℝ) (lam : ℝ) (m itr : ℕ) : Option (ℕ → ℝ) :=
  if m = 0 then none
  else (forUpM 0 itr (fun _ => invPowStep alpha beta lam m)
    (upd1 (fun _ => 0) 0 1, (fun _ => 0, fun _ => 0))).map Prod.fst

/-- `ReconvertVector` (Lanczos.h:118-128). -/
noncomputable def reconvert (m : ℕ) (y : ℕ → ℝ) (q : ℕ → Fin n → ℝ) : Fin n → ℝ :=
  forUp 0 m (fun k x => fun i => x i + q k i * y k) 0

/-! ### Bisection -/

/-- The bound `b` (Lanczos.h:43-48). -/
noncomputable def bisBound (alpha beta : ℕ → ℝ) (m : ℕ) : ℝ :=
  forUp 1 m (fun i b =>
    if b < |beta (i - 1)| + |alpha i| + |beta i| then |beta (i - 1)| + |alpha i| + |beta i| else b)
    (|alpha 0| + |beta 0|)

/-- Variables of the sign change count (Lanczos.h:56-57). -/
structure SturmState where
  pkm1 : ℝ
  pk : ℝ
  sign : ℝ
  N : ℕ

/-- Lanczos.h:58-61 and 64-67: count a sign change. -/
noncomputable def sturmSign (p : ℝ) (sign : ℝ) (N : ℕ) : ℝ × ℕ :=
  if sign * p < 0 then (sign * -1, N + 1) else (sign, N)

/-- The count `Nlambda` (Lanczos.h:56-70). -/
noncomputable def sturmCount (alpha beta : ℕ → ℝ) (m : ℕ) (lam : ℝ) : ℕ :=
  let p0 := alpha 0 - lam
  let s0 := sturmSign p0 1 0
  (forUp 0 (m - 1) (fun k (s : SturmState) =>
    let pkp1 := (alpha (k + 1) - lam) * s.pk - beta k ^ 2 * s.pkm1
    let t := sturmSign pkp1 s.sign s.N
    ⟨s.pk, pkp1, t.1, t.2⟩) ⟨1, p0, s0.1, s0.2⟩).N

/-- The loop of `BisectionMethod` (Lanczos.h:51-78) with a bound on the number of iterations; running
out of it, and returning `lambda` without having assigned it, are `none`. -/
noncomputable def bisLoop (alpha beta : ℕ → ℝ) (m mode : ℕ) (b : ℝ) :
    ℕ → ℝ → ℝ → Option ℝ → Option ℝ
  | 0, _, _, _ => none
  | fuel + 1, a1, a2, lam =>
    if a2 - a1 > 1.0e-13 * b then
      let l := 0.5 * (a1 + a2)
      if sturmCount alpha beta m l ≤ mode then bisLoop alpha beta m mode b fuel l a2 (some l)
      else bisLoop alpha beta m mode b fuel a1 l (some l)
    else lam

/-- `BisectionMethod` (Lanczos.h:40-81). -/
noncomputable def bisection (alpha beta : ℕ → ℝ) (m mode fuel : ℕ) : Option ℝ :=
  if m = 0 then none
  else
    let b := bisBound alpha beta m
    bisLoop alpha beta m mode b fuel (-b) b none

/-- Pair `k` that the shifted processes return (Lanczos.h:235-239, 275-279, 319-323). -/
noncomputable def shiftedPair (sigma : ℝ) (m k fuel itr : ℕ) (s : LanState n) :
    Option (ℝ × (Fin n → ℝ)) := do
  let e ← bisection s.alpha s.beta m (m - k - 1) fuel
  let f ← sdivide 1 e
  let y ← invPow s.alpha s.beta e m itr
  return (sigma + f, reconvert m y s.q)

end Pansfem
