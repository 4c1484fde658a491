/-
The loops of the filters as sums, and the hyperbolic tangent.
-/
import Verif.Model.Filter
import Verif.Lemmas.Dense
import Verif.Lemmas.Element
import Mathlib.Algebra.BigOperators.Fin
import Mathlib.Algebra.BigOperators.Ring.Finset
import Mathlib.Analysis.SpecialFunctions.Trigonometric.DerivHyp
import Mathlib.Analysis.Calculus.Deriv.MeanValue
import Mathlib.Tactic.FieldSimp

namespace Pansfem

section Loop
variable {K : Type} [Field K] [DecidableEq K]

theorem neighbourLoop_zip (nb : List ℕ) (w : List K) (h : nb.length ≤ w.length)
    (term : ℕ → K → Option (K × K)) (a b : ℕ → K → K)
    (ht : ∀ p ∈ nb.zip w, term p.1 p.2 = some (a p.1 p.2, b p.1 p.2)) :
    neighbourLoop nb w term = some (((nb.zip w).map fun p => a p.1 p.2).sum, ((nb.zip w).map fun p => b p.1 p.2).sum) := by
  suffices H : ∀ st : K × K, (List.range nb.length).foldlM (fun (st : K × K) j => do
        let t ← term (← nb[j]?) (← w[j]?)
        return (st.1 + t.1, st.2 + t.2)) st
      = some (st.1 + ((nb.zip w).map fun p => a p.1 p.2).sum, st.2 + ((nb.zip w).map fun p => b p.1 p.2).sum) by
    rw [neighbourLoop, H]; simp
  induction nb generalizing w with
  | nil => intro st; simp
  | cons k nb ih =>
    intro st
    cases w with
    | nil => simp at h
    | cons x w =>
      rw [List.length_cons, List.range_succ_eq_map, List.foldlM_cons]
      have h0 := ht (k, x) (by simp)
      simp only [List.getElem?_cons_zero, Option.bind_eq_bind, Option.bind_some, h0, Option.pure_def, List.foldlM_map,
        List.getElem?_cons_succ]
      refine (ih w (by simpa using h) (fun p hp => ht p (by simp [hp])) (st.1 + a k x, st.2 + b k x)).trans ?_
      simp [add_assoc]

end Loop

section Tanh

theorem tanh_hasDerivAt (x : ℝ) : HasDerivAt Real.tanh (1 - Real.tanh x ^ 2) x := by
  have hc := (Real.cosh_pos x).ne'
  have h := (Real.hasDerivAt_sinh x).div (Real.hasDerivAt_cosh x) hc
  have e : Real.tanh = fun y => Real.sinh y / Real.cosh y := by
    funext y; exact Real.tanh_eq_sinh_div_cosh y
  rw [Real.tanh_eq_sinh_div_cosh x, e]
  refine h.congr_deriv ?_
  field_simp

theorem tanh_strictMono : StrictMono Real.tanh := by
  refine strictMono_of_deriv_pos fun x => ?_
  rw [(tanh_hasDerivAt x).deriv]
  have := Real.tanh_sq_lt_one x
  linarith

theorem tanh_pos {x : ℝ} (h : 0 < x) : 0 < Real.tanh x := by
  have := tanh_strictMono h
  rwa [Real.tanh_zero] at this

end Tanh

end Pansfem
