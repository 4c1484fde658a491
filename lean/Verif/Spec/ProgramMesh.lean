/-
Conditions on meshes and supports for the analysis programs.
-/
import Verif.Model.Assembly
import Mathlib.Logic.Relation
import Mathlib.Data.Real.Basic

namespace Pansfem

/-- Coordinate `j` of node `m`. -/
noncomputable def coord (x : List (Vec ℝ)) (m j : ℕ) : ℝ := (nodal x m j).getD 0

/-- Twice the signed area of a triangle. -/
noncomputable def triArea (x : List (Vec ℝ)) (a b c : ℕ) : ℝ :=
  (coord x b 0 - coord x a 0) * (coord x c 1 - coord x a 1) - (coord x c 0 - coord x a 0) * (coord x b 1 - coord x a 1)

/-- The nodes of a list have two coordinates. -/
def HasCoords (x : List (Vec ℝ)) (e : List ℕ) : Prop := ∀ m ∈ e, (nodal x m 0).isSome ∧ (nodal x m 1).isSome

/-- The elements are triangles of positive area. -/
def Triangles (x : List (Vec ℝ)) (elements : List (List ℕ)) : Prop :=
  ∀ e ∈ elements, HasCoords x e ∧ ∃ a b c, e = [a, b, c] ∧ 0 < triArea x a b c

/-- Node `m` is listed, or shares an element with a node for which this holds. -/
inductive Anchored (elements : List (List ℕ)) (fixed : List (ℕ × ℕ)) : ℕ → Prop
  | fixed {m : ℕ} : (m, 0) ∈ fixed → Anchored elements fixed m
  | step {m m' : ℕ} {e : List ℕ} : e ∈ elements → m ∈ e → m' ∈ e → Anchored elements fixed m' →
      Anchored elements fixed m

/-- Two elements share two nodes. -/
def ShareSide (e f : List ℕ) : Prop := ∃ m m', m ≠ m' ∧ m ∈ e ∧ m' ∈ e ∧ m ∈ f ∧ m' ∈ f

/-- Every element is reached from every other one across shared sides. -/
def SideConnected (elements : List (List ℕ)) : Prop :=
  ∀ e ∈ elements, ∀ f ∈ elements, Relation.ReflTransGen (fun a b => b ∈ elements ∧ ShareSide a b) e f

/-- Component `j` at node `m` of the plane rigid motion with translation `(p, q)` and rotation `w`. -/
noncomputable def rigidAt (x : List (Vec ℝ)) (p q w : ℝ) (m j : ℕ) : ℝ :=
  if j = 0 then p - w * coord x m 1 else q + w * coord x m 0

/-- The supports at nodes of elements allow no rigid motion. -/
def Supported (x : List (Vec ℝ)) (elements : List (List ℕ)) (fixed : List (ℕ × ℕ)) : Prop :=
  ∀ p q w : ℝ, (∀ s ∈ fixed, (∃ e ∈ elements, s.1 ∈ e) → s.2 < 2 → rigidAt x p q w s.1 s.2 = 0) →
    p = 0 ∧ q = 0 ∧ w = 0

end Pansfem
