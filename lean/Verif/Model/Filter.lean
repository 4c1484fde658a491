/-
The filters of design variables and sensitivities: /repo/src/Optimize/Filter.

* Lists stand for `std::vector`; reading outside is `none`.
* A division by zero is `none` (the code goes on with an infinity or a NaN).
* `pow(x, 2.0)` is the exact square, `tanh` is the real function.
-/
import Verif.Model.Element
import Mathlib.Analysis.Complex.Trigonometric

namespace Pansfem

section
variable {K : Type} [Field K] [DecidableEq K]

/-- The loop over the neighbours of one variable (src/Optimize/Filter/DensityFilter.h:49-52 and the
like): `term k w` gives what the neighbour `k` of weight `w` adds to the two sums. -/
def neighbourLoop (nb : List ℕ) (w : List K) (term : ℕ → K → Option (K × K)) : Option (K × K) :=
  (List.range nb.length).foldlM (fun st j => do
      let t ← term (← nb[j]?) (← w[j]?)
      return (st.1 + t.1, st.2 + t.2)) (0, 0)

/-- Weighted sum and sum of the weights (DensityFilter.h:48-52, HeavisideFilter.h:64-69). -/
def weightedSums (nb : List ℕ) (w : List K) (v : ℕ → Option K) : Option (K × K) :=
  neighbourLoop nb w fun k wj => do return (wj * (← v k), wj)

/-- One pass of the loop over the variables of `DensityFilter` (DensityFilter.h:47-54): the weighted
mean of the values `v` at the neighbours. -/
def weightedMean (neighbors : List (List ℕ)) (w : List (List K)) (v : ℕ → Option K) (i : ℕ) : Option K := do
  let st ← weightedSums (← neighbors[i]?) (← w[i]?) v
  div? st.1 st.2

/-- `DensityFilter::GetFilteredVariables` (DensityFilter.h:45-56). -/
def densityVariables (n : ℕ) (neighbors : List (List ℕ)) (w : List (List K)) (s : List K) : Option (List K) :=
  (List.range n).mapM (weightedMean neighbors w fun k => s[k]?)

/-- `DensityFilter::GetFilteredSensitivitis` (DensityFilter.h:60-71); the argument `_s` is not used. -/
def densitySensitivities (n : ℕ) (neighbors : List (List ℕ)) (w : List (List K)) (_s dfdrho : List K) :
    Option (List K) :=
  (List.range n).mapM (weightedMean neighbors w fun k => dfdrho[k]?)

/-- One pass of the loop of `SensitivityFilter::GetFilteredSensitivitis`
(src/Optimize/Filter/SensitivityFilter.h:46-53). -/
def sigmundEntry (neighbors : List (List ℕ)) (w : List (List K)) (s d : List K) (i : ℕ) : Option K := do
  let st ← neighbourLoop (← neighbors[i]?) (← w[i]?) fun k wj => do return (wj * (← s[k]?) * (← d[k]?), wj)
  div? st.1 (st.2 * (← s[i]?))

/-- `SensitivityFilter::GetFilteredSensitivitis` (SensitivityFilter.h:44-55). -/
def sigmundSensitivities (n : ℕ) (neighbors : List (List ℕ)) (w : List (List K)) (s d : List K) :
    Option (List K) :=
  (List.range n).mapM (sigmundEntry neighbors w s d)

/-- One pass of the loop of `SensitivityFilter2::GetFilteredSensitivitis` (SensitivityFilter.h:90-97). -/
def borrvallEntry (neighbors : List (List ℕ)) (w : List (List K)) (s d : List K) (i : ℕ) : Option K := do
  let st ← neighbourLoop (← neighbors[i]?) (← w[i]?) fun k wj => do
    return (wj * (← s[k]?) * (← d[k]?), wj * (← s[k]?))
  div? st.1 st.2

/-- `SensitivityFilter2::GetFilteredSensitivitis` (SensitivityFilter.h:88-99). -/
def borrvallSensitivities (n : ℕ) (neighbors : List (List ℕ)) (w : List (List K)) (s d : List K) :
    Option (List K) :=
  (List.range n).mapM (borrvallEntry neighbors w s d)

end

noncomputable section

/-- The projection of one mean (src/Optimize/Filter/HeavisideFilter.h:70). -/
def project (beta y : ℝ) : Option ℝ :=
  div? (0.5 * (Real.tanh (0.5 * beta) + Real.tanh (beta * (y - 0.5)))) (Real.tanh (0.5 * beta))

/-- Its derivative as the code has it (HeavisideFilter.h:86). -/
def projectDerivative (beta y : ℝ) : Option ℝ :=
  div? (0.5 * beta * (1.0 - Real.tanh (beta * (y - 0.5)) ^ 2)) (Real.tanh (0.5 * beta))

/-- One pass of the loop of `HeavisideFilter::GetFilteredVariables` (HeavisideFilter.h:63-71). -/
def heavisideEntry (beta : ℝ) (neighbors : List (List ℕ)) (w : List (List ℝ)) (s : List ℝ) (i : ℕ) :
    Option ℝ := do
  project beta (← weightedMean neighbors w (fun k => s[k]?) i)

/-- `HeavisideFilter::GetFilteredVariables` (HeavisideFilter.h:61-73). -/
def heavisideVariables (n : ℕ) (beta : ℝ) (neighbors : List (List ℕ)) (w : List (List ℝ)) (s : List ℝ) :
    Option (List ℝ) :=
  (List.range n).mapM (heavisideEntry beta neighbors w s)

/-- One pass of the first loop of `HeavisideFilter::GetFilteredSensitivitis` (HeavisideFilter.h:79-87). -/
def slopeEntry (beta : ℝ) (neighbors : List (List ℕ)) (w : List (List ℝ)) (s : List ℝ) (i : ℕ) : Option ℝ := do
  projectDerivative beta (← weightedMean neighbors w (fun k => s[k]?) i)

/-- `HeavisideFilter::GetFilteredSensitivitis` (HeavisideFilter.h:77-99). -/
def heavisideSensitivities (n : ℕ) (beta : ℝ) (neighbors : List (List ℕ)) (w : List (List ℝ))
    (s dfdrho : List ℝ) : Option (List ℝ) := do
  let slope ← (List.range n).mapM (slopeEntry beta neighbors w s)
  (List.range n).mapM (weightedMean neighbors w fun k => do return (← dfdrho[k]?) * (← slope[k]?))

end

end Pansfem
