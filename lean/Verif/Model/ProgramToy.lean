/-
The programs which try MMA on small problems (src/Optimize/Solver/test_MMA.cpp, test_MMA_TOY2.cpp, test_MMA_3.cpp).

Simplified: printing is left out; `pow(x, 2.0)` is the square of `x`; real numbers instead of `double`.
-/
import Verif.Model.MMA
import Verif.Model.ProgramOptimize

noncomputable section

namespace Pansfem

/-- Objective, constraints and their sensitivities at a design (test_MMA.cpp:35-38). -/
structure ToyValues (n m : ℕ) where
  f : ℝ
  df : Fin n → ℝ
  g : Fin m → ℝ
  dg : Fin m → Fin n → ℝ

/-- A pass of the loop: the design and its values (test_MMA.cpp:29-74). -/
structure ToyPass (n m : ℕ) where
  s : Fin n → ℝ
  v : ToyValues n m

/-- The loop with `left` passes left (test_MMA.cpp:29-74; test_MMA_TOY2.cpp:33-84 and test_MMA_3.cpp:28-71 are the
same): the passes that were evaluated, and how the program ends. -/
def toyLoop {n m : ℕ} (V : (Fin n → ℝ) → Option (ToyValues n m)) (fuel : ℕ) :
    ℕ → (Fin n → ℝ) → MMA n m → List (ToyPass n m) × Ending
  | 0, _, _ => ([], .exhausted)
  | left + 1, s, o =>
    match V s with
    | none => ([], .undefined)
    | some v =>
      if isConvergence o.previousvalue o.epsvalue v.f then ([⟨s, v⟩], .optimised)
      else
        match mmaUpdate o fuel s v.f v.df v.g v.dg with
        | .undefined => ([⟨s, v⟩], .undefined)
        | .running => ([⟨s, v⟩], .stuck)
        | .done q => (⟨s, v⟩ :: (toyLoop V fuel left q.1 q.2).1, (toyLoop V fuel left q.1 q.2).2)

/-- The optimiser of the three programs (test_MMA.cpp:19-27, test_MMA_TOY2.cpp:23-31, test_MMA_3.cpp:20-26). -/
def toyMMA {n : ℕ} (m : ℕ) (xmin xmax : Fin n → ℝ) : MMA n m :=
  (MMA.mk' 1 (fun _ => 0) (fun _ => 1000) (fun _ => 1) xmin xmax).setParameters 1.0e-5 0.1 0.5 0.5 0.7 1.2 1.0e-5

/-- The weight of a beam of five pieces and its deflection (test_MMA.cpp:40-56). -/
def beamValues (s : Fin 5 → ℝ) : Option (ToyValues 5 1) := do
  let p0 ← pow? (s 0) (-3)
  let p1 ← pow? (s 1) (-3)
  let p2 ← pow? (s 2) (-3)
  let p3 ← pow? (s 3) (-3)
  let p4 ← pow? (s 4) (-3)
  let q0 ← pow? (s 0) (-4)
  let q1 ← pow? (s 1) (-4)
  let q2 ← pow? (s 2) (-4)
  let q3 ← pow? (s 3) (-4)
  let q4 ← pow? (s 4) (-4)
  return { f := 0.0624 * (s 0 + s 1 + s 2 + s 3 + s 4)
           df := fun _ => 0.0624
           g := fun _ => 61 * p0 + 37 * p1 + 19 * p2 + 7 * p3 + 1 * p4 - 1
           dg := fun _ => ![-3 * 61 * q0, -3 * 37 * q1, -3 * 19 * q2, -3 * 7 * q3, -3 * 1 * q4] }

/-- The distance to the origin and to two balls (test_MMA_TOY2.cpp:44-63). -/
def ballValues (s : Fin 3 → ℝ) : Option (ToyValues 3 2) :=
  some { f := s 0 ^ 2 + s 1 ^ 2 + s 2 ^ 2
         df := ![2 * s 0, 2 * s 1, 2 * s 2]
         g := ![(s 0 - 5) ^ 2 + (s 1 - 2) ^ 2 + (s 2 - 1) ^ 2 - 9, (s 0 - 3) ^ 2 + (s 1 - 4) ^ 2 + (s 2 - 3) ^ 2 - 9]
         dg := ![![2 * (s 0 - 5), 2 * (s 1 - 2), 2 * (s 2 - 1)], ![2 * (s 0 - 3), 2 * (s 1 - 4), 2 * (s 2 - 3)]] }

/-- The weight of a truss of two bars and the stresses of its bars (test_MMA_3.cpp:39-51). -/
def twoBarValues (s : Fin 2 → ℝ) : Option (ToyValues 2 2) := do
  let r := Real.sqrt (1 + s 1 ^ 2)
  let p ← pow? (s 0) (-1)
  let q ← pow? (s 1) (-1)
  let p2 ← pow? (s 0) (-2)
  let q2 ← pow? (s 1) (-2)
  let e ← div? (1 * s 0 * s 1) r
  let h ← div? (0.124 * s 1) r
  return { f := 1 * s 0 * r
           df := ![1 * r, e]
           g := ![0.124 * r * (8 * p + 1 * p * q) - 1, 0.124 * r * (8 * p - 1 * p * q) - 1]
           dg := ![![0.124 * r * (-8 * p2 - 1 * p2 * q), h * (8 * p + 1 * p * q) + 0.124 * r * (-1 * p * q2)],
                   ![0.124 * r * (-8 * p2 + 1 * p2 * q), h * (8 * p - 1 * p * q) + 0.124 * r * (1 * p * q2)]] }

/-- The program of the beam (test_MMA.cpp:12-77). -/
def runBeam (fuel : ℕ) : List (ToyPass 5 1) × Ending :=
  toyLoop beamValues fuel 10 (fun _ => 5) (toyMMA 1 (fun _ => 1) fun _ => 10)

/-- The program of the balls (test_MMA_TOY2.cpp:20-87). -/
def runBalls (fuel : ℕ) : List (ToyPass 3 2) × Ending :=
  toyLoop ballValues fuel 10 ![4, 3, 2] (toyMMA 2 (fun _ => 0) fun _ => 5)

/-- The program of the two bars (test_MMA_3.cpp:12-73). -/
def runTwoBar (fuel : ℕ) : List (ToyPass 2 2) × Ending :=
  toyLoop twoBarValues fuel 100 ![1.5, 0.5] (toyMMA 2 ![0.2, 0.1] ![4, 1.6])

end Pansfem
