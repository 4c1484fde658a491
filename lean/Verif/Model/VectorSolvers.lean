/-
The iterative solvers on `std::vector`s.

Models /repo/src/LinearAlgebra/Solvers/CG.h on lists of reals, without fixing the lengths: each
vector kernel walks its iterators in step, and dereferencing an iterator at the end of its vector is
undefined (`none`).  `Verif/Model/Krylov.lean` has the same functions on `Fin n → ℝ`, where the
kernels are the pointwise expressions; the property C136 relates the two.

* Division by zero (infinity or NaN in the code) makes the step undefined: `none`.
* The printed message is returned as a flag: `true` for a return through the convergence test,
  `false` after `_itrmax` iterations.
-/
import Verif.Model.Krylov

namespace Pansfem

section Kernels

variable {K : Type} [Add K] [Sub K] [Mul K]

/-- `subtract` (CG.h:16-27): the loop runs over a vector of the size of `_b`. -/
def subtractV : List K → List K → Option (List K)
  | _, [] => some []
  | a, bi :: b => do
    let ai ← a.head?
    return (ai - bi) :: (← subtractV a.tail b)

/-- `xexpay` (CG.h:30-38): `x = x + a y`, over the elements of `_x`. -/
def xexpayV : List K → K → List K → Option (List K)
  | [], _, _ => some []
  | xi :: x, a, y => do
    let yi ← y.head?
    return (xi + a * yi) :: (← xexpayV x a y.tail)

/-- `xeaxpy` (CG.h:41-49): `x = a x + y`, over the elements of `_x`. -/
def xeaxpyV (a : K) : List K → List K → Option (List K)
  | [], _ => some []
  | xi :: x, y => do
    let yi ← y.head?
    return (a * xi + yi) :: (← xeaxpyV a x y.tail)

/-- `zeawpbxmypcz` (CG.h:52-62): `z = a w + b (x - y + c z)`, over the elements of `_z`. -/
def zeawpbxmypczV (a b c : K) : List K → List K → List K → List K → Option (List K)
  | _, _, _, [] => some []
  | w, x, y, zi :: z => do
    let wi ← w.head?
    let xi ← x.head?
    let yi ← y.head?
    return (a * wi + b * (xi - yi + c * zi)) :: (← zeawpbxmypczV a b c w.tail x.tail y.tail z)

/-- `xeaxpbypcz` (CG.h:65-74): `x = a x + b y + c z`, over the elements of `_x`. -/
def xeaxpbypczV (a b c : K) : List K → List K → List K → Option (List K)
  | [], _, _ => some []
  | xi :: x, y, z => do
    let yi ← y.head?
    let zi ← z.head?
    return (a * xi + b * yi + c * zi) :: (← xeaxpbypczV a b c x y.tail z.tail)

/-- `zeaxpby` (CG.h:77-88): `z = a x + b y`, a vector of the size of `_x`. -/
def zeaxpbyV (a b : K) : List K → List K → Option (List K)
  | [], _ => some []
  | xi :: x, y => do
    let yi ← y.head?
    return (a * xi + b * yi) :: (← zeaxpbyV a b x y.tail)

/-- `zeawpbxpcy` (CG.h:91-103): `z = a w + b x + c y`, a vector of the size of `_x`. -/
def zeawpbxpcyV (a b c : K) : List K → List K → List K → Option (List K)
  | _, [], _ => some []
  | w, xi :: x, y => do
    let wi ← w.head?
    let yi ← y.head?
    return (a * wi + b * xi + c * yi) :: (← zeawpbxpcyV a b c w.tail x y.tail)

/-- `zeavpbwpcxpdy` (CG.h:106-119): `z = a v + b w + c x + d y`, a vector of the size of `_x`. -/
def zeavpbwpcxpdyV (a b c d : K) : List K → List K → List K → List K → Option (List K)
  | _, _, [], _ => some []
  | v, w, xi :: x, y => do
    let vi ← v.head?
    let wi ← w.head?
    let yi ← y.head?
    return (a * vi + b * wi + c * xi + d * yi) :: (← zeavpbwpcxpdyV a b c d v.tail w.tail x y.tail)

/-- `std::inner_product(first1, last1, first2, init)` as called in CG.h:129-130: the loop runs over
the first range. -/
def innerV : K → List K → List K → Option K
  | acc, [], _ => some acc
  | acc, ai :: a, b => do
    let bi ← b.head?
    innerV (acc + ai * bi) a b.tail

end Kernels

/-- `sqrt(std::inner_product(v.begin(), v.end(), v.begin(), T()))` (CG.h:129). -/
noncomputable def normV (v : List ℝ) : Option ℝ := do
  return Real.sqrt (← innerV 0 v v)

/-! ### Preconditioners -/

/-- `GetDiagonal` (CG.h:398-405). -/
noncomputable def getDiagonalV (A : CSR ℝ) : Option (List ℝ) :=
  (List.range A.rows).mapM fun i => A.get i i

/-- `Scaling` (CG.h:409-416). -/
noncomputable def scalingV (D b : List ℝ) : Option (List ℝ) :=
  (List.range D.length).mapM fun i => do sdivide (← b[i]?) (← D[i]?)

/-- Inner loop of the forward pass of `PreILU0` (CG.h:293-299). -/
def ilFwdV (i : ℕ) : List (ℕ × ℝ) → List ℝ → Option (List ℝ)
  | [], v => some v
  | (j, a) :: l, v =>
    if j < i then do
      ilFwdV i l (v.set i ((← v[i]?) - a * (← v[j]?)))
    else some v

/-- Inner loop of the backward pass of `PreILU0` (CG.h:304-310), from the last entry of the row to
the first. -/
def ilBwdV (i : ℕ) : List (ℕ × ℝ) → List ℝ → Option (List ℝ)
  | [], v => some v
  | (j, a) :: l, v =>
    if i < j then do
      ilBwdV i l (v.set i ((← v[i]?) - a * (← v[j]?)))
    else some v

/-- `PreILU0` (CG.h:289-315). -/
noncomputable def preILU0V (M : CSR ℝ) (b : List ℝ) : Option (List ℝ) := do
  let v ← (List.range b.length).foldlM (fun (v : List ℝ) (i : ℕ) => do
    ilFwdV i (← M.rowEntries i) v) b
  (List.range b.length).reverse.foldlM (fun (v : List ℝ) (i : ℕ) => do
    let v ← ilBwdV i (← M.rowEntries i).reverse v
    let d ← sdivide (← v[i]?) (← M.get i i)
    return v.set i d) v

/-- Inner loop of `SOR` over the entries of row `i` (CG.h:509-516), on `x` and `Aii`. -/
def sorRowV (i : ℕ) : List (ℕ × ℝ) → List ℝ × ℝ → Option (List ℝ × ℝ)
  | [], s => some s
  | (j, a) :: l, (x, d) =>
    if i ≠ j then do
      sorRowV i l (x.set i ((← x[i]?) - a * (← x[j]?)), d)
    else sorRowV i l (x, a)

/-- Update of one component by `SOR` (CG.h:506-520).  The running error becomes `none` (infinite or
NaN in the code, never below a tolerance) when the old component is zero. -/
noncomputable def sorCompV (A : CSR ℝ) (b : List ℝ) (w : ℝ) (s : List ℝ × Option ℝ) (i : ℕ) :
    Option (List ℝ × Option ℝ) := do
  let tmp ← s.1[i]?
  let bi ← b[i]?
  let (x, d) ← sorRowV i (← A.rowEntries i) (s.1.set i bi, 0)
  let q ← sdivide (← x[i]?) d
  let xi := tmp + w * (q - tmp)
  return (x.set i xi, do return (← s.2) + |← sdivide (tmp - xi) tmp|)

open scoped Classical in
/-- The loop of `SOR` (CG.h:503-530). -/
noncomputable def sorLoopV (A : CSR ℝ) (b : List ℝ) (w eps : ℝ) : ℕ → List ℝ → Option (List ℝ)
  | 0, x => some x
  | m + 1, x => do
    let (x', e) ← (List.range A.rows).foldlM (sorCompV A b w) (x, some 0)
    if ∃ r, e = some r ∧ r < eps then return x' else sorLoopV A b w eps m x'

/-- `SOR` (CG.h:500-531). -/
noncomputable def sorV (A : CSR ℝ) (b : List ℝ) (w : ℝ) (itrmax : ℕ) (eps : ℝ) :
    Option (List ℝ) :=
  sorLoopV A b w eps itrmax (List.replicate A.rows 0)

/-! ### CG and its preconditioned variants -/

/-- Variables `xk, rk, pk` and `rkrk` or `Mrkrk` (CG.h:126-130). -/
structure CGVars where
  x : List ℝ
  r : List ℝ
  p : List ℝ
  rr : ℝ

/-- One iteration of `CG` (CG.h:134-141). -/
noncomputable def cgStepV (A : CSR ℝ) (s : CGVars) : Option CGVars := do
  let Ap ← A.mulVec s.p
  let alpha ← sdivide s.rr (← innerV 0 s.p Ap)
  let x ← xexpayV s.x alpha s.p
  let r ← xexpayV s.r (-alpha) Ap
  let rr ← innerV 0 r r
  let beta ← sdivide rr s.rr
  let p ← xeaxpyV beta s.p r
  return ⟨x, r, p, rr⟩

open scoped Classical in
/-- The loop of `CG` with its convergence test (CG.h:133-153). -/
noncomputable def cgLoopV (A : CSR ℝ) (eps bnorm : ℝ) : ℕ → CGVars → Option (List ℝ × Bool)
  | 0, s => some (s.x, false)
  | m + 1, s => do
    let s' ← cgStepV A s
    if Real.sqrt s'.rr < eps * bnorm then return (s'.x, true) else cgLoopV A eps bnorm m s'

/-- `CG` (CG.h:124-154). -/
noncomputable def cgV (A : CSR ℝ) (b : List ℝ) (itrmax : ℕ) (eps : ℝ) :
    Option (List ℝ × Bool) := do
  let x := List.replicate b.length (0 : ℝ)
  let r ← subtractV b (← A.mulVec x)
  let bnorm ← normV b
  let rr ← innerV 0 r r
  cgLoopV A eps bnorm itrmax ⟨x, r, r, rr⟩

/-- One iteration of `ILU0CG`, `ScalingCG` and `SORCG` (CG.h:331-339, 432-440, 547-555); `M` is the
preconditioner. -/
noncomputable def pcgStepV (A : CSR ℝ) (M : List ℝ → Option (List ℝ)) (s : CGVars) :
    Option CGVars := do
  let Ap ← A.mulVec s.p
  let alpha ← sdivide s.rr (← innerV 0 s.p Ap)
  let x ← xexpayV s.x alpha s.p
  let r ← xexpayV s.r (-alpha) Ap
  let Mr ← M r
  let rr ← innerV 0 Mr r
  let beta ← sdivide rr s.rr
  let p ← xeaxpyV beta s.p Mr
  return ⟨x, r, p, rr⟩

open scoped Classical in
/-- The loop with the convergence test on the residual (CG.h:330-351, 431-452, 546-567). -/
noncomputable def pcgLoopV (A : CSR ℝ) (M : List ℝ → Option (List ℝ)) (eps bnorm : ℝ) :
    ℕ → CGVars → Option (List ℝ × Bool)
  | 0, s => some (s.x, false)
  | m + 1, s => do
    let s' ← pcgStepV A M s
    if (← normV s'.r) < eps * bnorm then return (s'.x, true) else pcgLoopV A M eps bnorm m s'

/-- The common text of the three preconditioned CG functions (CG.h:322-327, 423-428, 538-543). -/
noncomputable def pcgV (A : CSR ℝ) (M : List ℝ → Option (List ℝ)) (b : List ℝ) (itrmax : ℕ)
    (eps : ℝ) : Option (List ℝ × Bool) := do
  let x := List.replicate b.length (0 : ℝ)
  let r ← subtractV b (← A.mulVec x)
  let p ← M r
  let bnorm ← normV b
  let rr ← innerV 0 p r
  pcgLoopV A M eps bnorm itrmax ⟨x, r, p, rr⟩

/-- `ScalingCG` (CG.h:420-453). -/
noncomputable def scalingCGV (A : CSR ℝ) (b : List ℝ) (itrmax : ℕ) (eps : ℝ) :
    Option (List ℝ × Bool) := do
  let D ← getDiagonalV A
  pcgV A (scalingV D) b itrmax eps

/-- `ILU0CG` (CG.h:320-352). -/
noncomputable def ilu0CGV (A M : CSR ℝ) (b : List ℝ) (itrmax : ℕ) (eps : ℝ) :
    Option (List ℝ × Bool) := pcgV A (preILU0V M) b itrmax eps

/-- `SORCG` (CG.h:536-568). -/
noncomputable def sorCGV (A : CSR ℝ) (b : List ℝ) (itrmax : ℕ) (eps soromega : ℝ)
    (soritermax : ℕ) (soreps : ℝ) : Option (List ℝ × Bool) :=
  pcgV A (fun v => sorV A v soromega soritermax soreps) b itrmax eps

/-! ### BiCGSTAB and its preconditioned variants -/

/-- Variables of `BiCGSTAB` (CG.h:161-166). -/
structure BiVars where
  x : List ℝ
  r : List ℝ
  rdash : List ℝ
  p : List ℝ
  rdr : ℝ

/-- One iteration of `BiCGSTAB` (CG.h:170-180). -/
noncomputable def biStepV (A : CSR ℝ) (s : BiVars) : Option BiVars := do
  let Ap ← A.mulVec s.p
  let alpha ← sdivide s.rdr (← innerV 0 s.rdash Ap)
  let sk ← zeaxpbyV 1 (-alpha) s.r Ap
  let As ← A.mulVec sk
  let omega ← sdivide (← innerV 0 As sk) (← innerV 0 As As)
  let x ← xeaxpbypczV 1 alpha omega s.x s.p sk
  let r ← zeaxpbyV 1 (-omega) sk As
  let rdr ← innerV 0 s.rdash r
  let ao ← sdivide alpha omega
  let beta ← sdivide (ao * rdr) s.rdr
  let p ← xeaxpbypczV beta 1 (-beta * omega) s.p r Ap
  return ⟨x, r, s.rdash, p, rdr⟩

open scoped Classical in
/-- The loop of `BiCGSTAB` (CG.h:169-192). -/
noncomputable def biLoopV (A : CSR ℝ) (eps bnorm : ℝ) : ℕ → BiVars → Option (List ℝ × Bool)
  | 0, s => some (s.x, false)
  | m + 1, s => do
    let s' ← biStepV A s
    if (← normV s'.r) < eps * bnorm then return (s'.x, true) else biLoopV A eps bnorm m s'

/-- `BiCGSTAB` (CG.h:159-193). -/
noncomputable def bicgstabV (A : CSR ℝ) (b : List ℝ) (itrmax : ℕ) (eps : ℝ) :
    Option (List ℝ × Bool) := do
  let x := List.replicate b.length (0 : ℝ)
  let r ← subtractV b (← A.mulVec x)
  let rdr ← innerV 0 r r
  let bnorm ← normV b
  biLoopV A eps bnorm itrmax ⟨x, r, r, r, rdr⟩

/-- One iteration of `ILU0BiCGSTAB` and `ScalingBiCGSTAB` (CG.h:368-380, 470-482). -/
noncomputable def pbiStepV (A : CSR ℝ) (M : List ℝ → Option (List ℝ)) (s : BiVars) :
    Option BiVars := do
  let Mp ← M s.p
  let AMp ← A.mulVec Mp
  let alpha ← sdivide s.rdr (← innerV 0 s.rdash AMp)
  let sk ← zeaxpbyV 1 (-alpha) s.r AMp
  let Ms ← M sk
  let AMs ← A.mulVec Ms
  let omega ← sdivide (← innerV 0 AMs sk) (← innerV 0 AMs AMs)
  let x ← xeaxpbypczV 1 alpha omega s.x Mp Ms
  let r ← zeaxpbyV 1 (-omega) sk AMs
  let rdr ← innerV 0 s.rdash r
  let ao ← sdivide alpha omega
  let beta ← sdivide (ao * rdr) s.rdr
  let p ← xeaxpbypczV beta 1 (-beta * omega) s.p r AMp
  return ⟨x, r, s.rdash, p, rdr⟩

open scoped Classical in
/-- The loop (CG.h:367-392, 469-494). -/
noncomputable def pbiLoopV (A : CSR ℝ) (M : List ℝ → Option (List ℝ)) (eps bnorm : ℝ) :
    ℕ → BiVars → Option (List ℝ × Bool)
  | 0, s => some (s.x, false)
  | m + 1, s => do
    let s' ← pbiStepV A M s
    if (← normV s'.r) < eps * bnorm then return (s'.x, true) else pbiLoopV A M eps bnorm m s'

/-- `ScalingBiCGSTAB` (CG.h:458-495). -/
noncomputable def scalingBiCGSTABV (A : CSR ℝ) (b : List ℝ) (itrmax : ℕ) (eps : ℝ) :
    Option (List ℝ × Bool) := do
  let D ← getDiagonalV A
  let x := List.replicate b.length (0 : ℝ)
  let r ← subtractV b (← A.mulVec x)
  let p ← scalingV D r
  let rdr ← innerV 0 r r
  let bnorm ← normV b
  pbiLoopV A (scalingV D) eps bnorm itrmax ⟨x, r, r, p, rdr⟩

/-- `ILU0BiCGSTAB` (CG.h:357-393). -/
noncomputable def ilu0BiCGSTABV (A M : CSR ℝ) (b : List ℝ) (itrmax : ℕ) (eps : ℝ) :
    Option (List ℝ × Bool) := do
  let x := List.replicate b.length (0 : ℝ)
  let r ← subtractV b (← A.mulVec x)
  let rdr ← innerV 0 r r
  let bnorm ← normV b
  pbiLoopV A (preILU0V M) eps bnorm itrmax ⟨x, r, r, r, rdr⟩

/-! ### BiCGSTAB2 -/

/-- Variables of `BiCGSTAB2` (CG.h:200-210). -/
structure Bi2Vars where
  x : List ℝ
  r : List ℝ
  rdash : List ℝ
  p : List ℝ
  u : List ℝ
  tm : List ℝ
  w : List ℝ
  z : List ℝ
  beta : ℝ
  rdr : ℝ

/-- The coefficients `zeta`, `ita` (CG.h:219-231). -/
noncomputable def bi2CoefV (k : ℕ) (y t At : List ℝ) : Option (ℝ × ℝ) := do
  let Att ← innerV 0 At t
  let AtAt ← innerV 0 At At
  if k % 2 = 0 then
    let zeta ← sdivide Att AtAt
    return (zeta, 0)
  else
    let yy ← innerV 0 y y
    let yt ← innerV 0 y t
    let Aty ← innerV 0 At y
    let zeta ← sdivide (yy * Att - yt * Aty) (AtAt * yy - Aty * Aty)
    let ita ← sdivide (AtAt * yt - Aty * Att) (AtAt * yy - Aty * Aty)
    return (zeta, ita)

/-- One iteration of `BiCGSTAB2` (CG.h:213-243). -/
noncomputable def bi2StepV (A : CSR ℝ) (k : ℕ) (s : Bi2Vars) : Option Bi2Vars := do
  let p ← xeaxpbypczV s.beta 1 (-s.beta) s.p s.r s.u
  let Ap ← A.mulVec p
  let alpha ← sdivide s.rdr (← innerV 0 s.rdash Ap)
  let y ← zeavpbwpcxpdyV 1 (-1) (-alpha) alpha s.tm s.r s.w Ap
  let t ← zeaxpbyV 1 (-alpha) s.r Ap
  let At ← A.mulVec t
  let (zeta, ita) ← bi2CoefV k y t At
  let u ← zeawpbxmypczV zeta ita s.beta Ap s.tm s.r s.u
  let z ← xeaxpbypczV ita zeta (-alpha) s.z s.r u
  let x ← xeaxpbypczV 1 alpha 1 s.x p z
  let r ← zeawpbxpcyV 1 (-ita) (-zeta) t y At
  let rdr ← innerV 0 s.rdash r
  let beta ← sdivide (alpha * rdr) (zeta * s.rdr)
  let w ← zeaxpbyV 1 beta At Ap
  return ⟨x, r, s.rdash, p, u, t, w, z, beta, rdr⟩

open scoped Classical in
/-- The loop of `BiCGSTAB2` (CG.h:212-252); `k` counts the iterations done. -/
noncomputable def bi2LoopV (A : CSR ℝ) (eps bnorm : ℝ) :
    ℕ → ℕ → Bi2Vars → Option (List ℝ × Bool)
  | 0, _, s => some (s.x, false)
  | m + 1, k, s => do
    let s' ← bi2StepV A k s
    if (← normV s'.r) < eps * bnorm then return (s'.x, true) else bi2LoopV A eps bnorm m (k + 1) s'

/-- `BiCGSTAB2` (CG.h:198-253). -/
noncomputable def bicgstab2V (A : CSR ℝ) (b : List ℝ) (itrmax : ℕ) (eps : ℝ) :
    Option (List ℝ × Bool) := do
  let x := List.replicate b.length (0 : ℝ)
  let r ← subtractV b (← A.mulVec x)
  let rdr ← innerV 0 r r
  let bnorm ← normV b
  bi2LoopV A eps bnorm itrmax 0 ⟨x, r, r, x, x, x, x, x, 0, rdr⟩

end Pansfem
