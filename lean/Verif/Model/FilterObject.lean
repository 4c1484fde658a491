/-
The class `HeavisideFilter` as an object: /repo/src/Optimize/Filter/HeavisideFilter.h. The functions of the class
are those of `Verif/Model/Filter.lean`, which take the members as arguments; here the members are kept in an object
on which functions are called one after another.
-/
import Verif.Model.Filter

namespace Pansfem

noncomputable section

/-- The members of `HeavisideFilter` (HeavisideFilter.h:28-33). -/
structure HeavisideObj where
  n : ℕ
  beta : ℝ
  neighbors : List (List ℕ)
  w : List (List ℝ)

/-- The constructor without arguments (HeavisideFilter.h:38-40). -/
def HeavisideObj.none : HeavisideObj := ⟨0, 1.0, [], []⟩

/-- The constructor with the tables (HeavisideFilter.h:47-52). -/
def HeavisideObj.make (n : ℕ) (neighbors : List (List ℕ)) (w : List (List ℝ)) : HeavisideObj := ⟨n, 1.0, neighbors, w⟩

/-- A call of a member function (HeavisideFilter.h:21-23). -/
inductive FilterCall where
  | updateBeta (beta : ℝ)
  | variables (s : List ℝ)
  | sensitivities (s dfdrho : List ℝ)

/-- One call: the object after it and the vector it returns, if it returns one (HeavisideFilter.h:55-57, 61-73 and
77-99). The two functions that return vectors only write to their own vectors. -/
def HeavisideObj.call (o : HeavisideObj) : FilterCall → Option (HeavisideObj × Option (List ℝ))
  | .updateBeta beta => some ({ o with beta := beta }, .none)
  | .variables s => do
    let rho ← heavisideVariables o.n o.beta o.neighbors o.w s
    return (o, some rho)
  | .sensitivities s d => do
    let dfds ← heavisideSensitivities o.n o.beta o.neighbors o.w s d
    return (o, some dfds)

/-- A sequence of calls on one object (HeavisideFilter.h:21-23): the object at the end and the returned vectors in
turn. -/
def HeavisideObj.calls (o : HeavisideObj) : List FilterCall → Option (HeavisideObj × List (Option (List ℝ)))
  | [] => some (o, [])
  | c :: cs => do
    let (o', r) ← o.call c
    let (o'', rs) ← o'.calls cs
    return (o'', r :: rs)

end

end Pansfem
