/-
Iterative solvers: CG, BiCGSTAB, BiCGSTAB2, their preconditioned variants and SOR.

Models /repo/src/LinearAlgebra/Solvers/CG.h over the real numbers.

* A `std::vector<T>` of length `n` is `Fin n → ℝ`; the vector kernels of CG.h:16-119 (`subtract`,
  `xexpay`, `xeaxpy`, ...) are the corresponding pointwise expressions and `std::inner_product` is
  `⬝ᵥ`.
* Division by zero (infinity or NaN in the code) makes the step undefined: `none`.
* The loops run over the remaining number of iterations.  The printed message is returned as a flag:
  `true` for a return through the convergence test, `false` after `_itrmax` iterations.
* The sparse operand is the `CSR` of `Verif/Model/Sparse.lean` and the product its `operator*`.
-/
import Verif.Model.Sparse
import Mathlib.Analysis.SpecialFunctions.Sqrt
import Mathlib.Data.Matrix.Mul

namespace Pansfem

open scoped Classical in
/-- Division of scalars (for example CG.h:135, 171, 174). -/
noncomputable def sdivide (a b : ℝ) : Option ℝ := if b = 0 then none else some (a / b)

/-- `_A*v` for a `CSR` and a vector of length `n` (CSR.h:109-122); a product of another length than
the vectors of the solver is outside the domain of the pointwise kernels. -/
def csrMul {n : ℕ} (A : CSR ℝ) (v : Fin n → ℝ) : Option (Fin n → ℝ) := do
  let y ← A.mulVec (List.ofFn v)
  if h : y.length = n then return fun i => y[(i : ℕ)]'(by have := i.2; omega) else none

/-- `sqrt(inner_product(v, v))` (CG.h:129, 144, 166, 183). -/
noncomputable def vnorm {n : ℕ} (v : Fin n → ℝ) : ℝ := Real.sqrt (v ⬝ᵥ v)

/-! ### CG -/

/-- Variables `xk, rk, pk, rkrk` of `CG` (CG.h:126-130); for the preconditioned variants the last
one is `Mrkrk`. -/
structure CGState (n : ℕ) where
  x : Fin n → ℝ
  r : Fin n → ℝ
  p : Fin n → ℝ
  rr : ℝ

/-- CG.h:126-130. -/
noncomputable def cgInit {n : ℕ} (A : CSR ℝ) (b : Fin n → ℝ) : Option (CGState n) := do
  let Ax ← csrMul A (0 : Fin n → ℝ)
  let r := b - Ax
  return ⟨0, r, r, r ⬝ᵥ r⟩

/-- One iteration of `CG` (CG.h:134-141). -/
noncomputable def cgStep {n : ℕ} (A : CSR ℝ) (s : CGState n) : Option (CGState n) := do
  let Ap ← csrMul A s.p
  let alpha ← sdivide s.rr (s.p ⬝ᵥ Ap)
  let x := s.x + alpha • s.p
  let r := s.r + (-alpha) • Ap
  let rr := r ⬝ᵥ r
  let beta ← sdivide rr s.rr
  let p := beta • s.p + r
  return ⟨x, r, p, rr⟩

open scoped Classical in
/-- The loop of `CG` with its convergence test (CG.h:133-153). -/
noncomputable def cgLoop {n : ℕ} (A : CSR ℝ) (eps bnorm : ℝ) :
    ℕ → CGState n → Option ((Fin n → ℝ) × Bool)
  | 0, s => some (s.x, false)
  | m + 1, s => do
    let s' ← cgStep A s
    if Real.sqrt s'.rr < eps * bnorm then return (s'.x, true) else cgLoop A eps bnorm m s'

/-- `CG` (CG.h:124-154). -/
noncomputable def cg {n : ℕ} (A : CSR ℝ) (b : Fin n → ℝ) (itrmax : ℕ) (eps : ℝ) :
    Option ((Fin n → ℝ) × Bool) := do
  let s ← cgInit A b
  cgLoop A eps (vnorm b) itrmax s

/-! ### Preconditioned CG -/

/-- Initialisation shared by `ILU0CG`, `ScalingCG` and `SORCG` (CG.h:322-327, 423-428, 538-543);
`M` is the preconditioner. -/
noncomputable def pcgInit {n : ℕ} (A : CSR ℝ) (M : (Fin n → ℝ) → Option (Fin n → ℝ))
    (b : Fin n → ℝ) : Option (CGState n) := do
  let Ax ← csrMul A (0 : Fin n → ℝ)
  let r := b - Ax
  let p ← M r
  return ⟨0, r, p, p ⬝ᵥ r⟩

/-- One iteration of `ILU0CG`, `ScalingCG` and `SORCG` (CG.h:331-339, 432-440, 547-555). -/
noncomputable def pcgStep {n : ℕ} (A : CSR ℝ) (M : (Fin n → ℝ) → Option (Fin n → ℝ))
    (s : CGState n) : Option (CGState n) := do
  let Ap ← csrMul A s.p
  let alpha ← sdivide s.rr (s.p ⬝ᵥ Ap)
  let x := s.x + alpha • s.p
  let r := s.r + (-alpha) • Ap
  let Mr ← M r
  let rr := Mr ⬝ᵥ r
  let beta ← sdivide rr s.rr
  let p := beta • s.p + Mr
  return ⟨x, r, p, rr⟩

open scoped Classical in
/-- The loop with the convergence test on the residual (CG.h:330-351, 431-452, 546-567). -/
noncomputable def pcgLoop {n : ℕ} (A : CSR ℝ) (M : (Fin n → ℝ) → Option (Fin n → ℝ))
    (eps bnorm : ℝ) : ℕ → CGState n → Option ((Fin n → ℝ) × Bool)
  | 0, s => some (s.x, false)
  | m + 1, s => do
    let s' ← pcgStep A M s
    if vnorm s'.r < eps * bnorm then return (s'.x, true) else pcgLoop A M eps bnorm m s'

/-- The common text of the three preconditioned CG functions (CG.h:320-352, 420-453, 536-567). -/
noncomputable def pcg {n : ℕ} (A : CSR ℝ) (M : (Fin n → ℝ) → Option (Fin n → ℝ)) (b : Fin n → ℝ)
    (itrmax : ℕ) (eps : ℝ) : Option ((Fin n → ℝ) × Bool) := do
  let s ← pcgInit A M b
  pcgLoop A M eps (vnorm b) itrmax s

/-- `GetDiagonal` (CG.h:398-405); the vector has `ROWS` entries. -/
noncomputable def getDiagonal (n : ℕ) (A : CSR ℝ) : Option (Fin n → ℝ) :=
  if A.rows = n then do
    let l ← (List.range n).mapM fun i => A.get i i
    if h : l.length = n then return fun i => l[(i : ℕ)]'(by have := i.2; omega) else none
  else none

open scoped Classical in
/-- `Scaling` (CG.h:409-416). -/
noncomputable def scaling {n : ℕ} (D b : Fin n → ℝ) : Option (Fin n → ℝ) :=
  if ∃ i, D i = 0 then none else some fun i => b i / D i

/-- `ScalingCG` (CG.h:420-453). -/
noncomputable def scalingCG {n : ℕ} (A : CSR ℝ) (b : Fin n → ℝ) (itrmax : ℕ) (eps : ℝ) :
    Option ((Fin n → ℝ) × Bool) := do
  let D ← getDiagonal n A
  pcg A (scaling D) b itrmax eps

/-! ### BiCGSTAB -/

/-- Variables of `BiCGSTAB` (CG.h:161-166). -/
structure BiState (n : ℕ) where
  x : Fin n → ℝ
  r : Fin n → ℝ
  rdash : Fin n → ℝ
  p : Fin n → ℝ
  rdr : ℝ

/-- CG.h:161-165. -/
noncomputable def biInit {n : ℕ} (A : CSR ℝ) (b : Fin n → ℝ) : Option (BiState n) := do
  let Ax ← csrMul A (0 : Fin n → ℝ)
  let r := b - Ax
  return ⟨0, r, r, r, r ⬝ᵥ r⟩

/-- One iteration of `BiCGSTAB` (CG.h:170-180). -/
noncomputable def biStep {n : ℕ} (A : CSR ℝ) (s : BiState n) : Option (BiState n) := do
  let Ap ← csrMul A s.p
  let alpha ← sdivide s.rdr (s.rdash ⬝ᵥ Ap)
  let sk := (1 : ℝ) • s.r + (-alpha) • Ap
  let As ← csrMul A sk
  let omega ← sdivide (As ⬝ᵥ sk) (As ⬝ᵥ As)
  let x := (1 : ℝ) • s.x + alpha • s.p + omega • sk
  let r := (1 : ℝ) • sk + (-omega) • As
  let rdr := s.rdash ⬝ᵥ r
  let ao ← sdivide alpha omega
  let beta ← sdivide (ao * rdr) s.rdr
  let p := beta • s.p + (1 : ℝ) • r + (-beta * omega) • Ap
  return ⟨x, r, s.rdash, p, rdr⟩

open scoped Classical in
/-- The loop of `BiCGSTAB` (CG.h:169-192). -/
noncomputable def biLoop {n : ℕ} (A : CSR ℝ) (eps bnorm : ℝ) :
    ℕ → BiState n → Option ((Fin n → ℝ) × Bool)
  | 0, s => some (s.x, false)
  | m + 1, s => do
    let s' ← biStep A s
    if vnorm s'.r < eps * bnorm then return (s'.x, true) else biLoop A eps bnorm m s'

/-- `BiCGSTAB` (CG.h:159-193). -/
noncomputable def bicgstab {n : ℕ} (A : CSR ℝ) (b : Fin n → ℝ) (itrmax : ℕ) (eps : ℝ) :
    Option ((Fin n → ℝ) × Bool) := do
  let s ← biInit A b
  biLoop A eps (vnorm b) itrmax s

/-! ### Preconditioned BiCGSTAB -/

/-- One iteration of `ILU0BiCGSTAB` and `ScalingBiCGSTAB` (CG.h:368-380, 470-482). -/
noncomputable def pbiStep {n : ℕ} (A : CSR ℝ) (M : (Fin n → ℝ) → Option (Fin n → ℝ))
    (s : BiState n) : Option (BiState n) := do
  let Mp ← M s.p
  let AMp ← csrMul A Mp
  let alpha ← sdivide s.rdr (s.rdash ⬝ᵥ AMp)
  let sk := (1 : ℝ) • s.r + (-alpha) • AMp
  let Ms ← M sk
  let AMs ← csrMul A Ms
  let omega ← sdivide (AMs ⬝ᵥ sk) (AMs ⬝ᵥ AMs)
  let x := (1 : ℝ) • s.x + alpha • Mp + omega • Ms
  let r := (1 : ℝ) • sk + (-omega) • AMs
  let rdr := s.rdash ⬝ᵥ r
  let ao ← sdivide alpha omega
  let beta ← sdivide (ao * rdr) s.rdr
  let p := beta • s.p + (1 : ℝ) • r + (-beta * omega) • AMp
  return ⟨x, r, s.rdash, p, rdr⟩

open scoped Classical in
/-- The loop (CG.h:367-392, 469-494). -/
noncomputable def pbiLoop {n : ℕ} (A : CSR ℝ) (M : (Fin n → ℝ) → Option (Fin n → ℝ))
    (eps bnorm : ℝ) : ℕ → BiState n → Option ((Fin n → ℝ) × Bool)
  | 0, s => some (s.x, false)
  | m + 1, s => do
    let s' ← pbiStep A M s
    if vnorm s'.r < eps * bnorm then return (s'.x, true) else pbiLoop A M eps bnorm m s'

/-- `ScalingBiCGSTAB` (CG.h:458-495); its first direction is `Scaling(D, rk)`. -/
noncomputable def scalingBiCGSTAB {n : ℕ} (A : CSR ℝ) (b : Fin n → ℝ) (itrmax : ℕ) (eps : ℝ) :
    Option ((Fin n → ℝ) × Bool) := do
  let D ← getDiagonal n A
  let s ← biInit A b
  let p ← scaling D s.r
  pbiLoop A (scaling D) eps (vnorm b) itrmax { s with p := p }

/-! ### BiCGSTAB2 -/

/-- Variables of `BiCGSTAB2` (CG.h:200-210). -/
structure Bi2State (n : ℕ) where
  x : Fin n → ℝ
  r : Fin n → ℝ
  rdash : Fin n → ℝ
  p : Fin n → ℝ
  u : Fin n → ℝ
  tm : Fin n → ℝ
  w : Fin n → ℝ
  z : Fin n → ℝ
  beta : ℝ
  rdr : ℝ

/-- CG.h:200-209. -/
noncomputable def bi2Init {n : ℕ} (A : CSR ℝ) (b : Fin n → ℝ) : Option (Bi2State n) := do
  let Ax ← csrMul A (0 : Fin n → ℝ)
  let r := b - Ax
  return ⟨0, r, r, 0, 0, 0, 0, 0, 0, r ⬝ᵥ r⟩

/-- The coefficients `zeta`, `ita` (CG.h:219-231). -/
noncomputable def bi2Coef {n : ℕ} (k : ℕ) (y t At : Fin n → ℝ) : Option (ℝ × ℝ) :=
  let Att := At ⬝ᵥ t
  let AtAt := At ⬝ᵥ At
  if k % 2 = 0 then do
    let zeta ← sdivide Att AtAt
    return (zeta, 0)
  else do
    let yy := y ⬝ᵥ y
    let yt := y ⬝ᵥ t
    let Aty := At ⬝ᵥ y
    let zeta ← sdivide (yy * Att - yt * Aty) (AtAt * yy - Aty * Aty)
    let ita ← sdivide (AtAt * yt - Aty * Att) (AtAt * yy - Aty * Aty)
    return (zeta, ita)

/-- One iteration of `BiCGSTAB2` (CG.h:213-243). -/
noncomputable def bi2Step {n : ℕ} (A : CSR ℝ) (k : ℕ) (s : Bi2State n) :
    Option (Bi2State n) := do
  let p := s.beta • s.p + (1 : ℝ) • s.r + (-s.beta) • s.u
  let Ap ← csrMul A p
  let alpha ← sdivide s.rdr (s.rdash ⬝ᵥ Ap)
  let y := (1 : ℝ) • s.tm + (-1 : ℝ) • s.r + (-alpha) • s.w + alpha • Ap
  let t := (1 : ℝ) • s.r + (-alpha) • Ap
  let At ← csrMul A t
  let (zeta, ita) ← bi2Coef k y t At
  let u := zeta • Ap + ita • (s.tm - s.r + s.beta • s.u)
  let z := ita • s.z + zeta • s.r + (-alpha) • u
  let x := (1 : ℝ) • s.x + alpha • p + (1 : ℝ) • z
  let r := (1 : ℝ) • t + (-ita) • y + (-zeta) • At
  let rdr := s.rdash ⬝ᵥ r
  let beta ← sdivide (alpha * rdr) (zeta * s.rdr)
  let w := (1 : ℝ) • At + beta • Ap
  return ⟨x, r, s.rdash, p, u, t, w, z, beta, rdr⟩

open scoped Classical in
/-- The loop of `BiCGSTAB2` (CG.h:212-252); `k` counts the iterations done. -/
noncomputable def bi2Loop {n : ℕ} (A : CSR ℝ) (eps bnorm : ℝ) :
    ℕ → ℕ → Bi2State n → Option ((Fin n → ℝ) × Bool)
  | 0, _, s => some (s.x, false)
  | m + 1, k, s => do
    let s' ← bi2Step A k s
    if vnorm s'.r < eps * bnorm then return (s'.x, true) else bi2Loop A eps bnorm m (k + 1) s'

/-- `BiCGSTAB2` (CG.h:198-253). -/
noncomputable def bicgstab2 {n : ℕ} (A : CSR ℝ) (b : Fin n → ℝ) (itrmax : ℕ) (eps : ℝ) :
    Option ((Fin n → ℝ) × Bool) := do
  let s ← bi2Init A b
  bi2Loop A eps (vnorm b) itrmax 0 s

/-! ### PreILU0, SOR -/

/-- Inner loop of the forward pass of `PreILU0` (CG.h:293-299) over the entries of row `i`. -/
def ilFwd {n : ℕ} (i : Fin n) : List (ℕ × ℝ) → (Fin n → ℝ) → Option (Fin n → ℝ)
  | [], v => some v
  | (j, a) :: l, v =>
    if h : j < i then ilFwd i l (Function.update v i (v i - a * v ⟨j, h.trans i.2⟩)) else some v

/-- Inner loop of the backward pass of `PreILU0` (CG.h:304-310) over the entries of row `i` from
the last to the first. -/
def ilBwd {n : ℕ} (i : Fin n) : List (ℕ × ℝ) → (Fin n → ℝ) → Option (Fin n → ℝ)
  | [], v => some v
  | (j, a) :: l, v =>
    if i < j then
      if h : j < n then ilBwd i l (Function.update v i (v i - a * v ⟨j, h⟩)) else none
    else some v

/-- `PreILU0` (CG.h:289-315). -/
noncomputable def preILU0 {n : ℕ} (M : CSR ℝ) (b : Fin n → ℝ) : Option (Fin n → ℝ) := do
  let v ← (List.finRange n).foldlM (fun (v : Fin n → ℝ) (i : Fin n) => do ilFwd i (← M.rowEntries i) v) b
  (List.finRange n).reverse.foldlM (fun (v : Fin n → ℝ) (i : Fin n) => do
    let v ← ilBwd i (← M.rowEntries i).reverse v
    let d ← sdivide (v i) (← M.get i i)
    return Function.update v i d) v

/-- `ILU0CG` (CG.h:320-352). -/
noncomputable def ilu0CG {n : ℕ} (A M : CSR ℝ) (b : Fin n → ℝ) (itrmax : ℕ) (eps : ℝ) :
    Option ((Fin n → ℝ) × Bool) := pcg A (preILU0 M) b itrmax eps

/-- `ILU0BiCGSTAB` (CG.h:357-393). -/
noncomputable def ilu0BiCGSTAB {n : ℕ} (A M : CSR ℝ) (b : Fin n → ℝ) (itrmax : ℕ) (eps : ℝ) :
    Option ((Fin n → ℝ) × Bool) := do
  let s ← biInit A b
  pbiLoop A (preILU0 M) eps (vnorm b) itrmax s

/-- Inner loop of `SOR` over the entries of row `i` (CG.h:509-516), on `x` and `Aii`. -/
def sorRow {n : ℕ} (i : Fin n) :
    List (ℕ × ℝ) → (Fin n → ℝ) × ℝ → Option ((Fin n → ℝ) × ℝ)
  | [], s => some s
  | (j, a) :: l, (x, d) =>
    if (i : ℕ) ≠ j then
      if h : j < n then sorRow i l (Function.update x i (x i - a * x ⟨j, h⟩), d) else none
    else sorRow i l (x, a)

/-- Update of one component by `SOR` (CG.h:506-520).  The running error becomes `none` (infinite or
NaN in the code, never below a tolerance) when the old component is zero. -/
noncomputable def sorComp {n : ℕ} (A : CSR ℝ) (b : Fin n → ℝ) (w : ℝ) (s : (Fin n → ℝ) × Option ℝ)
    (i : Fin n) : Option ((Fin n → ℝ) × Option ℝ) := do
  let tmp := s.1 i
  let (x, d) ← sorRow i (← A.rowEntries i) (Function.update s.1 i (b i), 0)
  let q ← sdivide (x i) d
  let x := Function.update x i (tmp + w * (q - tmp))
  return (x, do return (← s.2) + |← sdivide (tmp - x i) tmp|)

/-- One sweep of `SOR` (CG.h:504-521). -/
noncomputable def sorSweep {n : ℕ} (A : CSR ℝ) (b : Fin n → ℝ) (w : ℝ) (x : Fin n → ℝ) :
    Option ((Fin n → ℝ) × Option ℝ) :=
  (List.finRange n).foldlM (sorComp A b w) (x, some 0)

open scoped Classical in
/-- The loop of `SOR` (CG.h:503-530). -/
noncomputable def sorLoop {n : ℕ} (A : CSR ℝ) (b : Fin n → ℝ) (w eps : ℝ) :
    ℕ → (Fin n → ℝ) → Option ((Fin n → ℝ) × Bool)
  | 0, x => some (x, false)
  | m + 1, x => do
    let (x', e) ← sorSweep A b w x
    if ∃ r, e = some r ∧ r < eps then return (x', true) else sorLoop A b w eps m x'

/-- `SOR` (CG.h:500-531) for a matrix with `n` rows. -/
noncomputable def sor {n : ℕ} (A : CSR ℝ) (b : Fin n → ℝ) (w : ℝ) (itrmax : ℕ) (eps : ℝ) :
    Option ((Fin n → ℝ) × Bool) :=
  if A.rows = n then sorLoop A b w eps itrmax 0 else none

/-- `SORCG` (CG.h:536-568). -/
noncomputable def sorCG {n : ℕ} (A : CSR ℝ) (b : Fin n → ℝ) (itrmax : ℕ) (eps soromega : ℝ)
    (soritermax : ℕ) (soreps : ℝ) : Option ((Fin n → ℝ) × Bool) :=
  pcg A (fun v => (sor A v soromega soritermax soreps).map Prod.fst) b itrmax eps

end Pansfem
