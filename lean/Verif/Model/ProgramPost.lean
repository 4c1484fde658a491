/-
What the programs of /repo/sample compute from the displacements: element vectors, reaction forces,
compliance and its derivative.
-/
import Verif.Model.ProgramMain

namespace Pansfem

variable {K : Type}

/-- `ElementVector` for several node lists (General.h:101-120). -/
def elementVector2 [Zero K] (u : List (Vec K)) (ntes : List (List (List (ℕ × ℕ)))) (elements : List (List ℕ)) :
    Option (Vec K) :=
  (List.range ntes.length).foldlM (fun v i => do
    let nte ← ntes[i]?
    (List.range nte.length).foldlM (fun v j => do
      (← nte[j]?).foldlM (fun (v : Vec K) d => do v.put? d.2 (← nodal u (← (← elements[i]?)[j]?) d.1)) v) v)
    (Vec.zeros (ntes.map fun nte => (nte.map List.length).sum).sum)

/-- An element of the loops below: element matrix, table, nodes (sample_planestrain.cpp:71-75). -/
structure ElemData (K : Type) where
  Ke : Mat K
  nte : List (List (ℕ × ℕ))
  element : List ℕ

/-- The reaction forces (sample_planestrain.cpp:66-79, sample_truss_sizeoptimization.cpp:103-118,
sample_optimize_density_oc.cpp:135-150): every dof gets a number, `R` collects the products of element matrix
and element vector and is written to `r`. -/
def reactions [Ring K] (u r₀ : List (Vec K)) (t : List (List ℤ)) (items : List (ElemData K)) :
    Option (List (Vec K)) := do
  let s := renumbering (removeBoundaryConditions t)
  let R ← items.foldlM (fun R it => do
    let ue ← elementVector u it.nte it.element
    let Keue ← it.Ke.mulVec ue
    asmFe Keue s.1 it.nte it.element R) (List.replicate s.2 0)
  disassembling r₀ R s.1

/-- The element loop of the reaction forces: element routine and element (sample_planestrain.cpp:71-75). -/
def elemItems {K : Type} {n d : ℕ} (k : ℕ)
    (core : Matrix (Fin n) (Fin d) K → Option (Matrix (Fin n × Fin k) (Fin n × Fin k) K)) (doulist : List ℕ)
    (x : List (Vec K)) (elements : List (List ℕ)) : Option (List (ElemData K)) :=
  elements.mapM fun e => do
    let (Ke, nte) ← elemM k core e doulist x
    return ⟨Ke, nte, e⟩

/-- The reaction forces of the plane strain program (sample_planestrain.cpp:66-79) for the table `ntg` left by
the analysis. -/
noncomputable def planeStrainReactions (x : List (Vec ℝ)) (elements : List (List ℕ)) (E V t : ℝ)
    (ntg : List (List ℤ)) (u : List (Vec ℝ)) : Option (List (Vec ℝ)) := do
  reactions u (zeroField x.length 2) ntg
    (← elemItems 2 (fun X => planeStrainStiffness SF.triangle3 IC.gauss1Triangle X E V t) [0, 1] x elements)

/-- `std::inner_product(u.begin(), u.end(), r.begin(), 0.0)` (sample_truss_sizeoptimization.cpp:121): reading
past the end of `r` is undefined. -/
def innerProduct [Ring K] (u r : List (Vec K)) : Option K :=
  sumM u.length fun i => do (← u[i]?).dot (← r[i]?)

end Pansfem
