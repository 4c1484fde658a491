/-
The optimality criteria solver: /repo/src/Optimize/Solver/OC.h.

* Numbers are real; a division by zero, a power that is not a real number and a read outside a
  `std::vector` are `undefined` (the code goes on with an infinity or a NaN, or has undefined
  behaviour).
* The constraint callback may have a state: it gets the number of earlier calls.
* The loop runs with a bound on the number of passes; `running` means that the bound was reached.
* The counter `k` and the printed multiplier are left out.
-/
import Verif.Model.Element
import Mathlib.Analysis.SpecialFunctions.Pow.Real

namespace Pansfem

noncomputable section

/-- `pow(b, e)`: not real for a negative base and an exponent that is no integer, infinite for base 0 and
a negative exponent (OC.h:86). -/
def pow? (b e : ℝ) : Option ℝ :=
  if b < 0 ∧ Int.fract e ≠ 0 then none else if b = 0 ∧ e < 0 then none else some (b ^ e)

/-- The data members of `OC` (src/Optimize/Solver/OC.h:28-41). -/
structure OC where
  n : ℕ
  iota : ℝ
  lambdamin : ℝ
  lambdamax : ℝ
  lambdaeps : ℝ
  movelimit : ℝ
  xmin : List ℝ
  xmax : List ℝ
  previousvalue : ℝ
  epsvalue : ℝ

/-- The constructor (OC.h:46-60). -/
def OC.mk' (n : ℕ) (iota lambdamin lambdamax lambdaeps movelimit : ℝ) (xmin xmax : List ℝ) : OC where
  n := n
  iota := iota
  lambdamin := lambdamin
  lambdamax := lambdamax
  lambdaeps := lambdaeps
  movelimit := movelimit
  xmin := xmin
  xmax := xmax
  previousvalue := 0
  epsvalue := 1.0e-5

/-- `IsConvergence` (OC.h:68-73; MMA.h:108-113 and CONLIN.h:82-87 are the same); a NaN compares false. -/
def isConvergence (previousvalue epsvalue f : ℝ) : Bool :=
  match div? |f - previousvalue| (f + previousvalue) with
  | some q => decide (q < epsvalue)
  | none => false

/-- The clamping of one trial value (OC.h:87-91). -/
def ocClamp (move x y : ℝ) : ℝ :=
  if y < max 0 ((1 - move) * x) then max 0 ((1 - move) * x)
  else if min 1 ((1 + move) * x) < y then min 1 ((1 + move) * x) else y

/-- One trial value (OC.h:86-91). -/
def ocEntry (iota move lambda df dg x : ℝ) : Option ℝ := do
  let q ← div? (-df) (dg * lambda)
  return ocClamp move x ((← pow? q iota) * x)

/-- The loop over the variables for one multiplier (OC.h:85-92). -/
def ocTrial (o : OC) (x dfdx dgdx : List ℝ) (lambda : ℝ) : Option (List ℝ) :=
  (List.range o.n).mapM fun i => do ocEntry o.iota o.movelimit lambda (← dfdx[i]?) (← dgdx[i]?) (← x[i]?)

/-- The variables of the loop: `lambda0`, `lambda1`, `xkp1` and the number of calls of the callback (OC.h:80-97). -/
structure OCState where
  lambda0 : ℝ
  lambda1 : ℝ
  xkp1 : List ℝ
  calls : ℕ

/-- Outcome of a loop with a bound on the number of passes (the `while` of OC.h:82-99). -/
inductive Run (A : Type) where
  | undefined
  | running
  | done (a : A)

/-- The body of the loop (OC.h:83-98). -/
def ocBody (o : OC) (x dfdx dgdx : List ℝ) (g : ℕ → List ℝ → ℝ) (st : OCState) : Option OCState := do
  let lambda := 0.5 * (st.lambda1 + st.lambda0)
  let xkp1 ← ocTrial o x dfdx dgdx lambda
  return if 0 < g st.calls xkp1 then ⟨lambda, st.lambda1, xkp1, st.calls + 1⟩
    else ⟨st.lambda0, lambda, xkp1, st.calls + 1⟩

/-- The loop (OC.h:82-99). -/
def ocLoop (o : OC) (x dfdx dgdx : List ℝ) (g : ℕ → List ℝ → ℝ) : ℕ → OCState → Run OCState
  | fuel, st =>
    match div? (st.lambda1 - st.lambda0) (st.lambda1 + st.lambda0) with
    | none => .undefined
    | some q =>
      if o.lambdaeps < q then
        match fuel with
        | 0 => .running
        | fuel + 1 =>
          match ocBody o x dfdx dgdx g st with
          | none => .undefined
          | some st' => ocLoop o x dfdx dgdx g fuel st'
      else .done st

/-- State before the loop (OC.h:80-81). -/
def ocStart (o : OC) : OCState := ⟨o.lambdamin, o.lambdamax, List.replicate o.n 0, 0⟩

/-- `UpdateVariables` (OC.h:76-107): the new design and the object; `_g` is not used. -/
def ocUpdate (o : OC) (fuel : ℕ) (x : List ℝ) (f : ℝ) (dfdx : List ℝ) (_g : ℝ) (dgdx : List ℝ)
    (g : ℕ → List ℝ → ℝ) : Run (List ℝ × OC) :=
  match ocLoop o x dfdx dgdx g fuel (ocStart o) with
  | .undefined => .undefined
  | .running => .running
  | .done st => .done (st.xkp1, { o with previousvalue := f })

end

end Pansfem
