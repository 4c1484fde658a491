# PANSFEM2 in Lean 4: design

## Trusted base

* The Lean 4.33.0 kernel and the Mathlib installed beside it.
* Axioms: at most `propext`, `Classical.choice`, `Quot.sound` (the three standard
  ones).  No axiom is added, nothing is left unproved, and no compiler-trusting
  tactic is used.
* The correspondence between the C++ text in /repo and the Lean definitions.  It is
  by reading only; every definition cites the file and lines it follows.
* **Scalars.** The C++ templates are instantiated with `double`.  The model uses exact
  scalars: any field `K`, an ordered field where the code compares, or `ℝ` where it
  calls `sqrt`, `tanh`, `cos`, ....  Rounding, overflow, NaN and infinities are *not*
  modelled.
* **Integers.** `int` is modelled by `ℕ`/`ℤ` without overflow, except where integers are
  read from a text: there the range of 32 bits is checked as the library does.
* **Numbers as text.** How one scalar is written (`operator<<`) and read (`stod`, `>>`) are
  parameters of the theorems about files; `Converts` states what is assumed of them (no
  blanks, not empty, no capital letters, and reading a written number gives `val`).
* **Failure.** A failed `assert`, an out-of-range subscript and a division by zero are
  distinct outcomes (`none`) wherever the code can reach them; theorems either show
  that the outcome is not reached or state exactly when it is. One exception: the
  quotient `alpha = .../k` of the advection routines with `k = 0.0`, the value the
  rotation program passes, is `inf` and only compared (`alpha <= 3.0` is false), so
  `advScale` gives it as an optional number and `advLimit` takes the second branch.
* **Not modelled.** Console output, timing, the operating system's file layer (a
  file is the list of its characters), OpenMP other than the interleaving of the
  row updates of the CSR product and `src/**/test_*.cpp` except the three that try MMA (C148). Of `sample/` the analysis
  programs are modelled as far as the table below says; their literal data are inputs.

## Layout

* `Verif/Model/*.lean`: definitions only, following the code function by function.
* `Verif/Spec/*.lean`: small independent specifications used in statements.
* `Verif/Lemmas/*.lean`: helper lemmas.
* `Verif/Props/*.lean`: the property theorems, named after the property (`C05_...`),
  with a concrete instance (`example`) beside each.

A theorem whose name ends in `_partial` proves less than the property; its comment
says what is missing.  A theorem whose name ends in `_false` proves that the code
violates the property as stated, with a concrete witness.

## Properties: what is modelled and how it is proved

| id | model | proof |
|----|-------|-------|
| C01 | `Vec`, `Mat` with row-major storage, partial operations | refinement to entries |
| C02 | `Mat.det` with the closed forms and the recursive expansion | induction on size against `Matrix.det` |
| C03 | `Mat.inverse` (adjugate / determinant) | `Matrix.adjugate` |
| C04 | heap of blocks, handles, histories of operations | invariant by induction; the default-constructor defect gives a counterexample |
| C05 | rows as lists of (column, value) pairs | list induction; histories |
| C06 | indptr/indices/data arrays, binary search | invariant by induction over histories |
| C07 | conversions incl. the in-place sort of the source | permutation lemmas |
| C08 | product; parallel loop as interleavings of atomic row updates | sums; commutation of disjoint updates |
| C09 | folds of set/get | induction |
| C10 | in-place LU with pivot search, forward/back substitution | loop invariants |
| C11-C14 | solver loops as recursion on the iteration limit over exact scalars | invariants |
| C15,C16 | sweeps over CSR rows | invariants |
| C17 | one Gauss-Seidel/SOR sweep | algebra |
| C18 | Lanczos recurrence over ℝ | induction |
| C19 | Thomas elimination | induction |
| C20-C22 | tables of integers with -1 | list induction |
| C23-C26 | assembling loops in the option monad over LILCSR | sums over contributions |
| C27-C30 | the nine families, literally | ring identities, derivative lemmas |
| C31 | the rule tables, literally (√ values over ℝ) | ring identities per monomial, linearity |
| C32-C39 | element routines over an abstract family/rule | matrix algebra |
| C40-C42 | literal models | list induction |
| C43-C45 | filters with neighbour tables | convexity; derivative |
| C46,C47 | OC bisection with an arbitrary callback | invariant; non-termination witness; for lambdamin = 0 the upper limit halves until the callback reports a violation |
| C48-C51 | MMA/CONLIN inner iteration with arbitrary direction; dense solver | invariants |
| C57,C58,C95-C97 | character-level streams (`Stream`, `getline`, `>>`), files as lists of characters; writing and reading of one number are parameters `prt`, `rd` | list induction, one lemma per reader (`ReadsAs`), scan of lines |
| C59 | `Model/Delaunay`: numbers of nodes and elements are integers (-1 = none), squared distances, loops without bound run on a number of rounds; floating point comparisons exact with the code's tolerance | `Consistent` is an invariant; `linked_replace` for the surgery of neighbours, area by sums over changed places, `swapping` ends by counting elements whose first node is not the new one; counterexample by evaluation in the kernel |
| C98-C101 | same model; `SidesOnce`, `CornersSet`, `SmoothReady` say what the steps after the rough mesh need | C98 first match is the only match; C99 induction over the renumbering from the last node down; C100 period of an injective map on the elements around a node, area as a sum over outer sides (inner sides cancel by an involution); C101 counterexample, area affine in one corner and closed polygons |
| C102-C103 | same model; `BoundaryMarked` (outer sides marked, marked sides end in boundary nodes, other nodes used), `FineRun` (rounds of makefinemesh as a relation), `Short` (all squared side lengths within a bound) | C102 invariant through topology changes and every swap, then induction over rounds; C103 a wanted swap replaces a side by a shorter one, and the halves and the median at a midpoint are no longer than the sides of the element; counterexample found by search with a simulator, checked by the kernel |
| C104 | same model; `SetAlso` (which nodes get set), `Raw` (corners and flags of an element between the insertions), `Kept` (which elements remain, with sublists of the boundaries) | invariants through relink, swap and the three insertions, no assumption on the triangulation; induction over the boundaries; index order = sublist for lists without repetition |
| C105 | `Model/Lanczos`: `shiftMatrix`, `shiftPencil`, `shiftedProcess`, `generalProcess` on CSR matrices with the `ScalingCG` model | in-bounds lemmas for LIL/CSR, three-term recurrence with approximate images summed against `y` |
| C106, C107 | same; `gReLanczos`, `reorth`, `gReorth`; the last, unused division of the general version is left out (`nextImage`) | recurrence gives orthonormality with respect to `M`; the last remainder would be an `n+1`st orthonormal vector; witnesses with one and four unknowns |
| C108 | `Model/Program`: the `main` functions of the linear static samples as a composition of the modelled routines; the list of `Assembling` calls is arbitrary, sizes and tables are inputs | one equation per free dof: assembled row = residual of the field at the dof; C11-C14 for the solver |
| C109 | `Model/ProgramMain`: the heat and plane-strain samples with their element loops, for any mesh of triangles, material and boundary conditions; `Spec/ProgramMesh`: areas, chains of elements, supports | energy of the assembled matrix = sum of element energies; C33, C34 for the element kernels; a field without energy is constant/rigid along chains, the conditions leave only zero; then C108 |
| C110 | `Model/ProgramPost`: both `ElementVector`s, the reaction force loop, `std::inner_product` | effects of the assembling loop on a table without marks; work of the residual = bilinear form; C33 for rigid motions, C108 at the free dofs |
| C111 | `Model/ProgramDesign`: element loops with one coefficient per element, compliance and sensitivity loops of the truss and density samples (one iteration; the solver is replaced by displacements in exact equilibrium, the pow of the code by the real power) | element matrices are proportional to the coefficient, symmetric, positive semidefinite; difference of the work of the loads for two coefficients between two quadratic bounds, hence the derivative |
| C112 | `Model/ProgramDynamic`: element loop, time step and time loop of the heat, advection-diffusion and reaction-diffusion samples (files left out; the random initial field is an input) | a step is a static analysis with the matrix M/dt + theta K and a right-hand side from the old field, so its residual is that of the theta scheme; energy balance of the theta scheme with the bilinear forms of the element matrices; solvability by positivity on the free dofs; convex quadrilaterals have positive Jacobians |
| C113 | `Model/ProgramNewton`: Newton loops with load steps (total and updated Lagrange solid) and with steps of the boundary values (static Navier-Stokes); files left out | invariant over passes and steps: prescribed dofs fixed, the vector tested is the residual at the current field minus the products with the field given to Assembling; witnesses for small loads and for prescribed displacements; for the total Lagrange solid the vector is the derivative of the potential and the matrix minus the derivative of the vector |
| C114 | `Model/ProgramSolid`: linear solid program, mesh and data as inputs | zero energy of a parallelepiped forces zero strain at eight points, hence a rigid motion; rigid motions of elements that share a face agree; positive definiteness and C109's argument; first pass from the linearisation of C113 |
| C115 | `Model/ProgramVibration`: vibration program; stiffness and mass are assembled one after the other instead of in one loop | a serendipity polynomial that vanishes at nine points is zero, hence positive mass; forms over the free dofs; C105 for the pairs; witness with one unknown, where bisection only meets rational multiples of its bound and so the run completes |
| C116 | `Model/Krylov`: `CG`, `ScalingCG` | residuals stay in the range of the matrix, directions in its image under the preconditioner; a direction without energy is in the kernel, hence the residual is zero |
| C117 | `Model/ProgramCell`: homogenisation program up to the solver; matrix and the three right-hand sides are filled one after the other instead of in one loop | forms and loads over periodic fields; kernel; right-hand sides are orthogonal to it; the translation (1,-1) has neither strain nor spring work |
| C118 | `Model/ProgramCell`: the whole homogenisation program | C116 for the solves; energy identities with the imbalance; norm of a periodic field is the norm of the vector; witness: one square with all corners tied |
| C119 | `Model/ProgramLattice`: macroscopic part of the lattice optimisation program; tables of cell tensors are inputs; sums and products of 3x3 matrices are those of `Matrix` | derivative of a compliance when one form depends on a parameter (relative bound from positive definiteness, no differentiability of the displacements assumed); rotation of strains; Lagrange derivative of C41; existence of displacements by injectivity |
| C120 | `Model/ProgramSquare`: mesh, supports, loads and analysis of the lattice program; predicates are parameters, the unqualified `abs` is modelled in both readings | eight-node rectangles without strain at the nine points move rigidly (biquadratic polynomials vanishing on the grid), column by column from the left side; C54, C108 |
| C121 | as C119 | energy of the interpolated tensor is the weighted sum of the energies; explicit weights for the counterexample |
| C122 | `Model/ProgramSquare` (`densityProblem`, `densityAnalysis`): as C120, with first-order elements | kernel of the quadrilateral (bilinear fields without strain at four points), held meshes from side-connected elements; C54, C108 |
| C123 | `Model/ProgramOptimize`: the three density programs; files written are left out, passes are returned as a list, inner loops of the optimisers get a bound | evaluation from C122, C45 and definiteness; invariant of the loop for any optimiser that keeps its box (C46, C48, C51, C83) |
| C124 | `Model/ProgramLevelSet`: the level set program; files written are left out, passes are returned as a list, vectors with one entry are numbers where the program averages them | analysis from definiteness of plane stress (C34), update from C108 and C112, invariant of the loop; criterion over the history of objectives |
| C125 | `Model/ProgramDecoupled`: the decoupled Navier-Stokes program; files written are left out, the pair of lists given to `SetDirichlet` in turn is one list (later values prevail) | diagonal systems solved entrywise, pressure by C116 with definiteness of the Poisson form on linked nodes (`Lemmas/DecoupledStep`); invariant of the loop; exact integrals on rectangles for the first step of the cavity (`Lemmas/Cavity`) |
| C126 | `Model/ProgramTruss`: the two truss programs; files written are left out, the bisection of OC has a bound | energy of a bar as a square; rigid motions of triangulated cells for stiffness (`Lemmas/GroundStructure`); analysis generic in the element core and the solver (`Lemmas/LinearAnalysis`); invariant of the loop |
| C127 | `Model/ProgramFlow`: the Galerkin, SUPG and Stokes time loops and the driven cavity; files read are arguments, files written are left out | element matrices as sums of products of linear forms (`Lemmas/FlowForms`), one step generic in the item (`Lemmas/ProgramFlow`), induction over the steps; definedness (`Lemmas/FlowDefined`); a triangle solved by hand for the examples (`Lemmas/FlowTriangle`) |
| C128 | as C127; a step without solver error is a field that satisfies its equations for all test fields | test with the difference of two fields (with reversed pressure for Stokes); flow through the cells of the cavity telescopes |
| C129 | as C128 | test with pressures; recursion for the divergence; steps on a triangle with two unknowns |
| C130 | `Model/ProgramAdvection`: the stationary program; velocity, diffusion and solver are arguments | element matrices in coordinates of the corners (`Lemmas/Advection`), sides of neighbours cancel, positive forms have unique solutions (`Lemmas/StaticExact`) |
| C131 | `Model/ProgramAdvection`: the time dependent program; velocity field, time parameters and solver are arguments | as C130 with a velocity for each element, time stepping of C112 |
| C132 | as C131; a step without solver error is a field that satisfies its equations | completing the square in each triangle; a kernel by dimension for the factorised matrices |
| C133 | `Model/ProgramBeam`: the beam program; node positions, supports, loads and constants are arguments, the two section directions are the constants of the program | virtual work of the element at one point along and four points across the beam; rigid motions of connected parts; the closed solution of the cantilever by uniqueness |
| C134 | `Model/ProgramShell`: the shell program; mesh, predicates, load value and constants are arguments, `shellProgram` has the literals | element energy at the one integration point of the middle surface (`ShellFlat`); semidefinite systems: solvable exactly if loads do no work on the kernel, and then CG converges (`StaticSemi`, C116); kernel of the clamped grid column by column |
| C135 | `Model/ProgramStokes`: the steady Stokes program; mesh, predicates, lid velocity, viscosity and body force are arguments, `stokesProgram` has the literals | integrals over the cells in closed form (`Cavity8`); the lid values have no divergence, so loads do no work on the kernel (`StaticSemi.static_range`, indefinite systems); velocities without gradient column by column (`CavityKernel`); pressures that do no work from the equations of the middle nodes (`CavityPressure`) |
| C136 | `Model/VectorSolvers`: kernels, preconditioners and solvers of CG.h on lists of any length; kernels walk iterators in step | kernels by induction on the list, solvers by simulation of the fixed-length model (`Lemmas/VectorSim`); lengths tracked for the undefined cases |
| C137 | `Model/ElementStorage`: the linear element routines on `Mat`/`Vec` objects, assignment by assignment | assignments and block loops by induction (`Lemmas/ElementStorage*`), products by C01-C03, loops by simulation of `Model/Elastic` |
| C138 | `Model/ProgramLatticeRun`: evaluation, loop and literals of the program that optimises unit cells | induction on the passes (`Lemmas/ProgramLatticeRun`), C119-C120 for evaluations, C48 and C83 for MMA |
| C139 | `Model/VectorOptimizers`: MMA and CONLIN on lists of any length; every subscript and every division can fail where it is made | simulation of the fixed-length model step by step (`Lemmas/VectorOptimizers`); first read past the end for the undefined cases |
| C140 | `Model/ElementStorageScalar`: diffusion, advection, B-bar and homogenisation routines on `Mat`/`Vec` objects | as C137; sums of the stabilisation parameters by `Lemmas/ElementStorageScalar` |
| C141 | `Model/ElementStorageFluid`: Stokes and Navier-Stokes routines on `Mat`/`Vec` objects, velocity lists of any length | as C137; the entry writes of a block collected as a list of targets (`fillS_eq`), lists of other lengths by the first shape functions (`SF.first`) |
| C142 | `Model/ElementStorageNonlinear`: total and updated Lagrange routines and the following pressure on `Mat`/`Vec` objects; the element loops of the two solid programs | as C141; a loop over nodes that assigns all rows of their columns (`nodeFillS_eq`), the stacked stress blocks entry by entry (`stackS2_eq`, `stackS3_eq`) |
| C143 | `Model/ElementStorageShell`: truss, beam and shell routines on `Mat`/`Vec` objects, with `Vstack` of nodal directions, `Normal`, `VectorProduct` and the block rotation; the element loops of the beam and shell programs | as C141; rows stacked in a loop (`append_loop`), layers of the strain matrix (`layerS_eq`), the rotation by blocks (`rotatedAddS_eq`) |
| C144 | `Model/FilterObject`: `HeavisideFilter` as an object with members, sequences of calls | induction over the calls; tanh(tx)/tanh(x) grows with x by its derivative and the chords of sinh, limits of tanh (`Lemmas/Sharpen`) |
| C145 | `Model/OC`, `Model/ProgramOptimize`, `Model/ProgramTruss`: no new definitions | first order conditions of one variable of a trial design, convexity of 1/y, the last multiplier of the bisection; passes of the runs by C123 and C126 |
| C146 | `Model/OC`, `Model/ProgramTruss`, `Model/ProgramOptimize`: no new definitions | the upper end of the interval halves for ever if no design within the move limits violates the constraint; small multipliers give the raised design; induction over the passes |
| C147 | the same | last two multipliers of the bisection; trial designs of two multipliers differ by at most a power of their ratio; largest slope of the projection |
| C148 | `Model/ProgramToy`: the three programs that try MMA; printing is left out, `pow(x, 2.0)` is the square | C48 and C83 for each update, induction over the passes; derivatives of the functions of the problems |
| C52-C56 | meshers: assignments to vectors of a given size, in the order of the loops | cells of a grid with an injective numbering; cancellation of interior sides |
| C60-C89 | see `properties.jsonl`; further models in `Shell`, `Fluid`, `Nonlinear`, `General`, `Filter`, `OC`, `MMA`, `Heap` | as above |
| C90-C94 | the meshers with their coordinates | sums over rings, monotonicity of powers |

This file is refined as the model grows; the status of each property is in
`MANIFEST.json`.
