{
 "C01": {
  "status": "proved",
  "note": "Exact scalars. Success equations against Mathlib matrices, and failure iff shape/bounds mismatch for well formed objects."
 },
 "C02": {
  "status": "proved",
  "note": "All sizes, by induction on the size; failure iff empty or not square."
 },
 "C03": {
  "status": "proved",
  "note": "All sizes; result is Mathlib's inverse and a two-sided inverse; undefined iff determinant is zero or the matrix is empty or not square."
 },
 "C04": {
  "status": "partial",
  "note": "False as stated: the default constructors leave the pointer uninitialised and the destructor releases it (C04_default_false, C04_default_matrix_false); assignment to Vector(0) loses its block (C04_leak_false). C04_partial: with no default-constructed object destroyed before assignment nothing is released twice or used after release and every block with elements is released exactly once; C04_empty_partial: the full claim if nothing is assigned to an empty object owning a block."
 },
 "C05": {
  "status": "proved",
  "note": "Any history of writes; flags; failure iff row out of range."
 },
 "C06": {
  "status": "proved",
  "note": "Any history of writes, through std::lower_bound's halving loop; rows stay sorted and pointers consistent."
 },
 "C07": {
  "status": "proved",
  "note": "Both directions and the round trip; independence of the sorting algorithm."
 },
 "C08": {
  "status": "proved",
  "note": "Sequential product equals the mathematical product; every completed interleaving of load/store steps of the parallel rows equals the sequential result with no arithmetic laws assumed; completion under any schedule that runs every row often enough. Requires stored columns in range (no check in CSR.h)."
 },
 "C09": {
  "status": "proved",
  "note": "Entrywise sums, differences, scalings for both formats; shape mismatch fails."
 },
 "C10": {
  "status": "proved",
  "note": "All sizes, exact ordered field: PA=LU with a permutation, LU+SolveLU succeed and solve for every non-singular matrix, and a singular matrix never yields a result."
 },
 "C11": {
  "status": "proved",
  "note": "Exact reals. Residual identity after any number of iterations; the printed message is equivalent to the residual test on the returned vector (itrmax > 0)."
 },
 "C12": {
  "status": "proved",
  "note": "Orthogonality, conjugacy, definedness and termination for every symmetric positive definite matrix; a zero right-hand side is shown to divide by zero at once."
 },
 "C13": {
  "status": "proved",
  "note": "All four BiCGSTAB variants, any preconditioner, any number of iterations."
 },
 "C14": {
  "status": "proved",
  "note": "All three variants, any preconditioner; ScalingCG moreover terminates for every symmetric positive definite matrix."
 },
 "C15": {
  "status": "proved",
  "note": "All sizes: PreILU0 returns the unique solution of L U x = b for the stored factors."
 },
 "C16": {
  "status": "proved",
  "note": "All sizes and patterns: on stored positions (LU)_ij = a_ij, pattern unchanged; with a full pattern LU = A; success whenever diagonals are stored and no pivot vanishes."
 },
 "C17": {
  "status": "proved",
  "note": "All sizes: fixed points of a SOR sweep with relaxation factor other than 0 are exactly the solutions when the diagonal has no zero; a zero diagonal makes the sweep undefined; solutions stay."
 },
 "C18": {
  "status": "proved",
  "note": "Exact reals. Recurrence for any matrix, orthonormality for symmetric ones, at most n steps, RestartLanczos equals Lanczos, Ritz residual identity."
 },
 "C19": {
  "status": "proved",
  "note": "All sizes: no zero pivot => solves; iterates are unit vectors with (T - lambda) y' = c y."
 },
 "C20": {
  "status": "proved",
  "note": "All table shapes and markings."
 },
 "C21": {
  "status": "proved",
  "note": "All tables and lists; also when the call is defined (subscripts in range)."
 },
 "C22": {
  "status": "partial",
  "note": "The tie clause is false as stated: a chain of pairs leaves a slave with a number other than its master's (C22_ties_false). Proved when no master is itself a slave and each slave has one master (C22_ties_partial); the numbering clause is proved for all lists."
 },
 "C23": {
  "status": "proved",
  "note": "Every overload, any ring, any previous contents; entries outside the system are not touched because the result stays well formed with the same dimensions."
 },
 "C24": {
  "status": "proved",
  "note": "All permutations of a list of calls; symmetry from any symmetric start."
 },
 "C25": {
  "status": "proved",
  "note": "All tables and results."
 },
 "C26": {
  "status": "proved",
  "note": "End to end over any ring; the hypothesis K x = F is what C10-C16 establish for the solvers."
 },
 "C27": {
  "status": "proved",
  "note": "Nine families, any field of characteristic zero, all parametric points."
 },
 "C28": {
  "status": "partial",
  "note": "False for ShapeFunction20Cubic: its Points table has a spurious entry 12, so 21 points and a shifted tail (C28_cubic20_false). Proved for the other eight families and for the 20-node brick with that entry removed."
 },
 "C29": {
  "status": "proved",
  "note": "Nine families over the reals, all points."
 },
 "C30": {
  "status": "proved",
  "note": "Nine families, any node positions and affine field; gradient where the Jacobian does not vanish."
 },
 "C31": {
  "status": "proved",
  "note": "All fourteen rules against Lebesgue interval integrals: lines degree 1/3/5/7, squares and cubes 1/3/5 per variable, triangle 1/2 and tetrahedron 1 in total degree. sqrt and cbrt are exact."
 },
 "C32": {
  "status": "proved",
  "note": "All listed routines, plus mass, Brinkman and pressure-equation matrices; also stated for the matrix returned to the caller (C32_returned)."
 },
 "C33": {
  "status": "proved",
  "note": "Every shape family (Complete is proved for all of them), every rule and constitutive matrix; plane strain (standard, SRI, B-bar, Wilson-Taylor), plane stress, solid, truss, conduction, diffusion; plus equilibrium of the nodal forces."
 },
 "C34": {
  "status": "proved",
  "note": "Plane strain (standard, SRI, B-bar, Wilson-Taylor), plane stress, solid, conduction, diffusion, mass and capacity matrices; zero energy means zero strain at the integration points, and for the triangle and for every four-node quadrilateral with positive Jacobians at the four points (C34_quad_kernel for plane strain, C34_quad_stress for plane stress) exactly the rigid motions."
 },
 "C35": {
  "status": "proved",
  "note": "Equality of the routines as partial functions, over any field of characteristic zero."
 },
 "C36": {
  "status": "proved",
  "note": "For every family; edge length and triangle area are shown to be the geometric ones."
 },
 "C37": {
  "status": "partial",
  "note": "Solid elements: proved (Total and Updated Lagrange). Plane strain elements: proved up to the thickness, which both nonlinear routines ignore, so the claim is false for a thickness other than one (C37_planeStrainTL_false). Translations: proved for all four, for shape functions whose derivatives sum to zero."
 },
 "C38": {
  "status": "proved",
  "note": "The tangent is minus the Jacobian (directional derivatives in every direction) of the returned vector, which is minus the internal force. Also for the solid element. Exact real arithmetic."
 },
 "C39": {
  "status": "partial",
  "note": "False as stated (C39_false): the viscous cross terms are in the diagonal velocity blocks of the matrix, while the residual couples the two velocities. Proved: the claim holds exactly when these terms vanish (C39_iff_partial), in particular without viscosity, and the Jacobian with the terms moved (C39_corrected_partial)."
 },
 "C40": {
  "status": "partial",
  "note": "False for more than one dof per node (C40_false): all dofs of a node get the same local number, so assembling couples them. Proved: what is assembled in general (alpha for every pair of listed dofs of the same node), and the claim for one dof per node."
 },
 "C41": {
  "status": "proved",
  "note": "Distinct abscissae of any number; a repeated abscissa is an undefined outcome (C41_repeated). Derivatives over the reals. Exact arithmetic."
 },
 "C42": {
  "status": "proved",
  "note": "Both overloads (numbers, vectors). A node without element divides by zero (C42_orphan). Exact arithmetic."
 },
 "C43": {
  "status": "proved",
  "note": "DensityFilter's result is the mean with the shares of the neighbours (C43_mean, C43_shares, C43_share_nonneg); constants kept (C43_const), bounds (C43_bounds), monotone (C43_monotone). Bounds and monotonicity need non-negative weights with positive sum, as convexity does. A zero weight sum divides by zero (C43_undefined)."
 },
 "C44": {
  "status": "partial",
  "note": "False as stated: GetFilteredSensitivitis applies the filter itself to df/drho instead of its transpose, and the two differ as soon as weight sums differ between elements (C44_density_false, C44_heaviside_false: strip of three elements with equal symmetric weights). Proved where the shares are symmetric (C44_density_partial, C44_heaviside_partial) and that this condition is necessary for linear functions (C44_density_sharp); the slope of the projection used by HeavisideFilter is its derivative (C44_slope)."
 },
 "C45": {
  "status": "proved",
  "note": "Projection keeps 0, 1/2, 1 (C45_zero, C45_half, C45_one), is strictly increasing (C45_strictMono), maps [0,1] into [0,1] (C45_range); HeavisideFilter is the projection after the density filter (C45_filter), keeps [0,1] (C45_variables) and is monotone (C45_monotone). beta = 0 divides by zero (C45_beta_zero). Exact tanh over the reals."
 },
 "C46": {
  "status": "partial",
  "note": "False as stated: xmin and xmax are stored but never used, 0 and 1 are hard-coded (C46_box_false: a variable at xmin = 0.01 moves to 0.0085), and a starting interval that is already short makes the design zero (C46_skip, C46_move_false). Proved: when the bisection is entered and the variables are in [0,1] every new variable is within the move limits of the old one and in [0,1] (C46_move_partial), hence within limits with xmin <= 0 and xmax >= 1 (C46_box_partial)."
 },
 "C47": {
  "status": "partial",
  "note": "Proved for lambdamin > 0, with one bound for all callbacks, stateful ones included (C47_terminates_partial), and that a design is returned (C47_returns). False for lambdamin = 0, the value all samples use: when the callback never reports a violation the relative width stays 1 and the loop never ends (C47_never, C47_false). For lambdamin = 0 the loop ends if the callback reports a violation for all small multipliers (C47_zero); for negative derivatives of the objective it is enough that it does so for the design with all variables at their upper move limits (C47_raised). The statement is about exact arithmetic; in floating point the interval underflows after about 1100 passes and NaN ends the loop."
 },
 "C48": {
  "status": "proved",
  "note": "C48_step holds for an arbitrary direction; C48_passes for any number of passes of the inner loop; C48_mma and C48_calls for one and for any sequence of calls of UpdateVariables. Hypotheses: xmin < xmax, the design in the box, 0 <= albefa < 1, move > 0. Exact real arithmetic."
 },
 "C49": {
  "status": "proved",
  "note": "Value for the constraints (the constant of the objective is dropped by the code), directional derivatives for objective and constraints, convexity between the asymptotes."
 },
 "C50": {
  "status": "proved",
  "note": "All sizes: soundness, success for every non-singular non-empty system, empty system is undefined."
 },
 "C51": {
  "status": "proved",
  "note": "Any number of passes, one call and any sequence of calls. Exact real arithmetic."
 },
 "C52": {
  "status": "proved",
  "note": "C52_mesh/C52_loop/C52_nodes/C52_area/C52_ccw for all numbers of divisions and sizes."
 },
 "C53": {
  "status": "proved",
  "note": "Every 8 node element is the 4 node element with middle nodes on its sides; neighbours share the middle node."
 },
 "C54": {
  "status": "partial",
  "note": "Proved for SquareMesh, SquareMesh2, AnnulusMesh, SquareCircleAnnulusMesh, SquareAnnulusMesh2, GrandStructure2D and the Delaunay mesher. False for SquareAnnulusMesh, whose GenerateFixedlist exchanges t and 1-t with respect to GenerateNodes (C54_squareAnnulus_false); what it does is C54_squareAnnulus_partial."
 },
 "C55": {
  "status": "proved",
  "note": "For at least three nodes on a ring (always so for the square rings); C55_two shows that two do not suffice."
 },
 "C56": {
  "status": "proved",
  "note": "Squared distances in any ordered field, Euclidean distance over the reals."
 },
 "C57": {
  "status": "proved",
  "note": "Character level: getline, operator>>, stoi, stod over the list of the characters of the file, with eof and fail states. The value of a decimal text is a parameter rd of the theorems. C57_nodes, C57_elements, C57_dirichlet, C57_neumann, C57_periodic, C57_initial; C57_unopened for a file that does not open."
 },
 "C58": {
  "status": "partial",
  "note": "Proved for all meshes with val, the value a number has after it is written and read: ImportFromVTK2 (C58_nodes, C58_elements, C58_file) and the line reader ImportFromVTK (C58_points_lines, C58_cells_lines, C58_file_lines). 'Unchanged' (val = id) is false for any scalar type with more values than texts of the written length: C58_exact_false; C58_exact_partial gives the identity where the conversion is exact."
 },
 "C59": {
  "status": "partial",
  "note": "From a consistent triangulation (symmetric neighbours, counterclockwise elements, valid numbers) every single swap keeps neighbours, numbers and area (C59_swap); every insertion into an element or on a side with all swaps that follow ends and keeps everything, or comes to a swap made for the boundary that turns an element over (C59_in, C59_on); without the boundary neighbours in the mesh and for every midpoint insertion of the refinement there is no such swap (C59_in_first, C59_on_first, C59_refine). All histories of such steps: C59_history_partial. The code makes the swaps for the boundary without a look at the geometry: inserting a simple clockwise quadrilateral changes the total signed area (C59_false)."
 },
 "C60": {
  "status": "proved",
  "note": "Exact reals. At most 45 halvings, bracket of relative length 1e-13; the all-zero case returns an uninitialised variable."
 },
 "C61": {
  "status": "proved",
  "note": "All sizes, Gershgorin argument over exact reals."
 },
 "C62": {
  "status": "proved",
  "note": "Exact real arithmetic. The roots of successive Sturm polynomials are shown to interlace strictly, so each sign change of the sequence adds exactly one root. Eigenvalues are defined by non-zero eigenvectors of the tridiagonal matrix, not by the polynomials."
 },
 "C63": {
  "status": "proved",
  "note": "Exact real arithmetic. The strain energy is written with the displacement gradient of the interpolated field, independently of the B and P tables. Rigid motions use shape functions with partition of unity."
 },
 "C64": {
  "status": "partial",
  "note": "NavierStokesStiffness: proved (dissipation 2*mu*eps:eps, no force on rigid velocities). StokesStiffness: non-negative and no force on translations, but false for rotations (C64_stokes_false): its off-diagonal blocks have the derivatives swapped, so a rotation w is charged 2*mu*w^2 per unit area (C64_stokes_rotation_partial)."
 },
 "C65": {
  "status": "proved",
  "note": "The Jacobian is the directional derivative (HasDerivAt) of the returned vector in every direction. Exact real arithmetic."
 },
 "C66": {
  "status": "proved",
  "note": "Exact real arithmetic; divisions by zero in tau are undefined outcomes."
 },
 "C67": {
  "status": "proved",
  "note": "Any field; no work needs characteristic zero."
 },
 "C68": {
  "status": "proved",
  "note": "Symmetry of the pressure matrix is C32_pressurePoisson."
 },
 "C69": {
  "status": "proved",
  "note": "Exact real arithmetic; divisions by zero in the element length are undefined outcomes."
 },
 "C70": {
  "status": "proved",
  "note": "Total and Updated Lagrange, plane strain and solid. Stored energies: St Venant-Kirchhoff and compressible neo-Hooke. Exact real arithmetic."
 },
 "C71": {
  "status": "proved",
  "note": "Directional derivatives in every direction, at displacements with positive Jacobian. Exact real arithmetic, real logarithm."
 },
 "C72": {
  "status": "proved",
  "note": "Rotations about the origin; with C37 translations these give all rigid motions. Total Lagrange also covers reflections."
 },
 "C73": {
  "status": "proved",
  "note": "The exact tangent of a single edge is not symmetric; the routine returns its symmetric part. Total load proved for any shape functions summing to one, and for the straight edge as pressure times deformed length, normal to it."
 },
 "C74": {
  "status": "proved",
  "note": "Affine images for all shape functions and rules; closed formulas for triangle3, square4 (all rules with the stated moments, checked for 1 and 4 points), tetrahedron4, cubic8 (parallelepipeds). Exact arithmetic."
 },
 "C75": {
  "status": "proved",
  "note": "Two-node lines; any rule exact of degree m, in particular all the rules of C31 on the line. Nodes with other than one coordinate fail an assertion (C75_coordinates)."
 },
 "C76": {
  "status": "proved",
  "note": "C76_sigmund, C76_sigmund_sign, C76_sigmund_uniform, C76_borrvall, C76_borrvall_bounds, C76_borrvall_const; a zero variable divides by zero (C76_sigmund_zero)."
 },
 "C77": {
  "status": "proved",
  "note": "C77_bracket, C77_monotone; the returned design may be the infeasible end (C77_infeasible)."
 },
 "C78": {
  "status": "partial",
  "note": "Proved for a positive sum (C78_positive_partial). False otherwise: the absolute value is missing in the denominator, so with a negative sum every value counts as converged (C78_negative, C78_false)."
 },
 "C79": {
  "status": "proved",
  "note": "Bbar and SRI need two rules that agree on the area of the element."
 },
 "C80": {
  "status": "proved",
  "note": "For plane stress with E = 0 every strain out of the plane is stress free, so this case is excluded there; C80_tension covers it."
 },
 "C81": {
  "status": "partial",
  "note": "The code takes the Jacobian of the incompatible modes at the integration point instead of the centre, so constant stresses do work on the modes unless the element is a parallelogram: C81_false is a trapezoid with Gauss4Square that is too soft in simple shear. Proved: the least energy (C81_condensation), the exact condition for constant states (C81_iff), and that parallelograms meet it (C81_parallelogram_partial)."
 },
 "C82": {
  "status": "proved",
  "note": "The cell problem enters as the balance of the summed loads tested with the characteristic displacements themselves."
 },
 "C83": {
  "status": "proved",
  "note": "Exact real arithmetic. Both reduced systems are proved nonsingular (quasi-definite and positive definite)."
 },
 "C84": {
  "status": "partial",
  "note": "Proved when there are more variables than constraints, and otherwise for one variable or all a zero. False otherwise (C84_false): MMA.h:304 and CONLIN.h:252 add the term a*a/Dlambday of the corner inside the loop over the variables, n times; C84_defect gives the exact error."
 },
 "C85": {
  "status": "proved",
  "note": "Exact real arithmetic; says nothing when the loop does not end."
 },
 "C86": {
  "status": "proved",
  "note": "Weak duality with the multipliers of the loop. Exact real arithmetic."
 },
 "C87": {
  "status": "proved",
  "note": ""
 },
 "C88": {
  "status": "proved",
  "note": "Exact for every rule and every element, degenerate ones excepted where the gradient is used."
 },
 "C89": {
  "status": "proved",
  "note": "Heap model with explicit blocks refines the value semantics used by the other models."
 },
 "C90": {
  "status": "proved",
  "note": "For SquareAnnulusMesh2, whose edges do not contain the hole (C93), the area of the elements only."
 },
 "C91": {
  "status": "proved",
  "note": ""
 },
 "C92": {
  "status": "proved",
  "note": "The graded mesh is part of C90_graded, the square mesh of C52_ccw."
 },
 "C93": {
  "status": "partial",
  "note": "All but the edges: GenerateEdges lists the outer boundary only, the sides of the hole are missing (C93_hole_false)."
 },
 "C94": {
  "status": "proved",
  "note": ""
 },
 "C95": {
  "status": "partial",
  "note": "False: the failed getline leaves the last field in str, which is assigned to all further components (C95_missing_false). Proved: what the components get in every case (C95_missing_partial)."
 },
 "C96": {
  "status": "proved",
  "note": "C96_point_vectors, C96_point_scalars, C96_cell_scalars, C96_one_component. Lines before are those which do not change the mode and are not the first line of the data set; with isheader the section line is found by the scan, without it the reader is already in the section."
 },
 "C97": {
  "status": "partial",
  "note": "False for every mesh: ImportPOINTS after ImportCELLS returns no points (C97_order_false). Proved: the call that found nothing sets the stream to the beginning, and the next ImportPOINTS returns the points (C97_again_partial)."
 },
 "C98": {
  "status": "proved",
  "note": "Hypothesis SidesOnce: every directed side belongs to one element. Elements that do not meet it (overlapping triangles) are outside the claim."
 },
 "C99": {
  "status": "proved",
  "note": "The new number of a set node is shown to be the number of set nodes before it."
 },
 "C100": {
  "status": "proved",
  "note": "The walk returns to its start because the step to the next element is injective on the elements at the node; the area is a sum over outer sides."
 },
 "C101": {
  "status": "partial",
  "note": "False as stated: C101_false gives a node in a quadrilateral that is not convex, whose smoothing turns two elements over. C101_node_partial proves it for the move of a node with a convex polygon around it. Missing: polygons that are not convex, where it fails."
 },
 "C102": {
  "status": "proved",
  "note": "The condition that no smoothing turns an element over is needed: C101_false. C102_loop relates the rounds to the loop with its exit test."
 },
 "C103": {
  "status": "partial",
  "note": "The last part is false: C103_false gives a pentagon where the last smoothing leaves a side of squared length 42.4 with bound 6.5. Proved: the search (C103_longest), the refinement (C103_refine), and that all sides are within the bound before the last refinement and before the last smoothing (C103_exit_partial). Missing: the sides after that smoothing, where it fails."
 },
 "C104": {
  "status": "proved",
  "note": "The order of corners on a boundary is stated with sublists, not with the index search of the code. C104_ready gives the hypothesis of C100 and C102; that the insertions always give such a mesh is false (C59_false)."
 },
 "C105": {
  "status": "proved",
  "note": "Exact real arithmetic; the solutions are those of the ScalingCG model."
 },
 "C106": {
  "status": "partial",
  "note": "Proved for Lanczos and, with exact solutions, ShiftedInvertLanczos. False for GeneralShiftedInvertLanczos, which divides the first vector by its Euclidean norm: 5 x = lambda 4 x with shift 1 gives about 17/16 (C106_general_false, through CSR, ScalingCG and BisectionMethod). The _partial theorems assume that the diagonal of the shifted matrix has the same length in both norms."
 },
 "C107": {
  "status": "partial",
  "note": "Proved for RestartLanczos. False for GeneralRestartShiftedInvertLanczos (Lanczos.h:303 subtracts a multiple of B q instead of q); C107_general_partial: a vector that is orthogonal already is left alone."
 },
 "C108": {
  "status": "proved",
  "note": "Model/Program.lean composes the modelled routines in the order of the sample programs; solveStep keeps the solver's flag."
 },
 "C109": {
  "status": "proved",
  "note": "Model/ProgramMain.lean has the element loops of the two programs; C109_heat and C109_planeStrain, each with a worked mesh meeting all hypotheses."
 },
 "C110": {
  "status": "proved",
  "note": "Element data are any square matrices with tables numbering their rows; C110_planeStrain instantiates the element routine of the program."
 },
 "C111": {
  "status": "proved",
  "note": "One iteration of the loops, before filtering and update. The displacements are assumed in exact equilibrium (C108/C110 give it up to the tolerance of the solver); supports have zero displacement as in the programs. Reals for doubles, real power for pow."
 },
 "C112": {
  "status": "proved",
  "note": "Exact steps are solutions of the equation of a step without solver error; computed steps meet it up to the tolerance of the solver. The advection-diffusion program is covered by the general theorems on runs (one joint assembling call), not instantiated. Output files are left out. Reals for doubles."
 },
 "C113": {
  "status": "partial",
  "note": "False as stated, two ways. normR is the sum of the squares of R, so the test bounds the square of the out-of-balance forces: loads below 1e-10 are taken for converged at zero displacement (C113_false, C113_small, C113_solid_small with a cube). Assembling is given the total field u, so R contains the products of the matrices with the prescribed displacements: with prescribed values that are not zero a loop is left with out-of-balance forces as large as the loads (C113_prescribed_false). What holds (C113_analysis_partial): prescribed values exact, square of the norm of R below 1e-10 times the loads, R the out-of-balance forces if the prescribed values are zero; C113_boundary for the flow program, where the increment is passed and the square of the out-of-balance forces is below 1e-10 whatever the boundary values; C113_pass, C113_solves, C113_linear, C113_two_passes for the passes; C113_solid, C113_solid_tangent, C113_solid_newton for the total Lagrange solid."
 },
 "C114": {
  "status": "proved",
  "note": "C114_kernel: the element matrix of a parallelepiped vanishes exactly on rigid motions; C114_solid: the linear program succeeds; C114_first_pass: the first pass of the total Lagrange program is the linear analysis. Meshes of general hexahedra are outside; the arithmetic is exact."
 },
 "C115": {
  "status": "partial",
  "note": "C115_matrices: the assembled matrices are the stiffness and mass forms, positive definite where claimed, and the shifted matrix is positive definite for negative shifts. C115_pairs_partial: number of results, supports, and the residual of each pair as an explicit sum of the solver errors (each below 1e-10 relative), the small residual and the last remainder. C115_false: one element with one free dof, where one step is complete; the program returns a value that is off by more than 0.9 times the shift for every negative shift, because the first vector is divided by its Euclidean norm and not by its mass norm."
 },
 "C116": {
  "status": "proved",
  "note": "Over the reals. C12 and C14 are the positive definite case."
 },
 "C117": {
  "status": "partial",
  "note": "Positive definiteness fails for every cell (C117_singular, C117_false): WeakSpring gives both dofs of a node the same local number, so the springs only see ux + uy and the translation (1,-1) stays in the kernel. Proved: the forms and loads, that vectors are exactly the periodic fields, the kernel, that the three systems are solvable nevertheless and that their strains are unique. Missing: uniqueness of the displacements, which is false."
 },
 "C118": {
  "status": "partial",
  "note": "Returning fails (C118_false, C118_breaks): when a macroscopic strain loads no periodic field, as in a cell of one material without hole, ScalingCG divides zero by zero. Proved with at most 50000 nodes: it returns with convergence reported exactly when each strain loads some periodic field; and for every returned result the balance, energy, symmetry and bounds. Missing: cells without load, where the claim is false."
 },
 "C119": {
  "status": "proved",
  "note": "Over the reals, for displacements in exact equilibrium (the program solves up to 1e-10). The tensors of the unit cells are inputs, see C118. The update is that of the MMA optimiser, see C48."
 },
 "C120": {
  "status": "proved",
  "note": "Over the reals. That the tensors of a design are positive definite is a hypothesis, see C121."
 },
 "C121": {
  "status": "partial",
  "note": "False (C121_false): the Lagrange weight of the first size is negative between the second and the third, and one cell tensor a thousand times as stiff as the others gives a tensor with negative energy for every strain. Proved: positive definite where no weight is negative, with two sizes per direction everywhere between them, and for tables of small spread in terms of the sum of the absolute weights. Not known: whether the tables that the homogenisation of the program computes have such a spread."
 },
 "C122": {
  "status": "proved",
  "note": "Over the reals. C122_analysis holds on any held mesh of quadrilaterals with positive Jacobians at the four points."
 },
 "C123": {
  "status": "proved",
  "note": "Over the reals. The inner loops of the optimisers get a bound on their passes; an optimiser that does not return within it ends the model of the program with `stuck`. Whether it returns is the subject of C47 and C83."
 },
 "C124": {
  "status": "proved",
  "note": "Over the reals. The condition nvol >= 4 keeps the criterion from reading objective[t-5] with a negative index; the program has nvol = 100. For nu = 1/2 the program divides by zero (excluded by hypothesis)."
 },
 "C125": {
  "status": "proved",
  "note": "Over the reals. The dichotomy between a computed step and a divergence free auxiliary velocity is proved for every step; that it does not occur in later steps of the cavity is not claimed."
 },
 "C126": {
  "status": "proved",
  "note": "Over the reals. The bisection of OC gets a bound on its passes, as in C123. Whether OC returns is the subject of C47."
 },
 "C127": {
  "status": "proved",
  "note": "Over the reals. Files read and written are left out: nodes, elements and given values are arguments. sample_stokes_dynamic.cpp calls functions under names that no longer exist in src; the model takes their present names."
 },
 "C128": {
  "status": "partial",
  "note": "Violated: pressures at nodes of no pressure element (all midside nodes) are free dofs that no equation mentions, so the system is singular (C128_unused, C128_determined_false), and in the driven cavity no pressure is given, so a constant can be added on every grid (C128_cavity, C128_cavity_false). Proved instead: velocities at the nodes of the elements are determined and pressures up to fields that do no work, for the Galerkin loop as long as convection does no negative work (so in the first step) and for the Stokes program always. Missing: the SUPG loop, and the Galerkin loop with convection that does negative work."
 },
 "C129": {
  "status": "partial",
  "note": "Violated: continuity is imposed on the mean of old and new velocities, so with theta = 1/2 a divergence of the start only changes sign (C129_alternates) and on one triangle no step at all gives divergence free velocities (C129_divfree_false). Proved: the exact law of the divergence for any theta (C129_divergence), and that velocities stay divergence free if they are at the start (C129_divfree_partial)."
 },
 "C130": {
  "status": "proved",
  "note": "C130_equations, C130_run and C130_sample (the constants and BiCGSTAB of the program) for every run; C130_still: without velocity the program divides zero by zero. C130_energy is the energy identity, C130_dissipative and C130_positive follow for values given where the flow enters; C130_unique, C130_constant and C130_error are the consequences. The shock-capturing matrix is computed and dropped by the program. That BiCGSTAB reaches its tolerance is not claimed."
 },
 "C131": {
  "status": "proved",
  "note": "C131_rotation is the program with its constants and BiCGSTAB; C131_equations, C131_defined, C131_still, C131_run and C131_constant are the general statements, C131_answers shows that runs exist. The files written are left out. That BiCGSTAB reaches its tolerance is not claimed."
 },
 "C132": {
  "status": "partial",
  "note": "False as stated (C132_false): the program passes k = 0 and uses one quadrature point, so the matrix of every element has rank one, and on a mesh with more free nodes than elements every step has several solutions (C132_rank). C132_partial proves existence and uniqueness with positive diffusion if (tau - theta dt)^2 |w|^2 < 4 theta k dt in every element. Missing: k = 0 on meshes with enough elements."
 },
 "C133": {
  "status": "proved",
  "note": "C133_equations, C133_run, C133_stable, C133_unique and C133_solves are the general statements, C133_cantilever the solution in closed form, C133_deviation its distance to beam theory, C133_upright the division by zero. Exact arithmetic; reading the CSV files is C57, the files written are left out."
 },
 "C134": {
  "status": "partial",
  "note": "C134_equations, C134_run, C134_energy, C134_solvable and C134_solves are proved for all flat meshes. The last sentence is false: rotations about the normal are never determined (C134_drilling), and on a strip of one row, which is the mesh the program ships with, the displacements are not determined either (C134_determined_false; C134_motions gives the motions, C134_corner a load without equilibrium). C134_determined_partial proves it for grids with at least two rows except for the rotations about the normal; C134_grid and C134_strip prove that the program still converges there, C134_program for the shipped literals. Exact arithmetic; abs is the one of double."
 },
 "C135": {
  "status": "partial",
  "note": "C135_equations, C135_run, C135_answers and C135_weak are proved for all meshes that are not degenerate, C135_program, C135_exists and C135_divfree for all grids, C135_sample for the literals. The last sentence is false on every grid: a constant can be added to the pressure and the pressure at a middle node can be anything (C135_determined_false). C135_determined_partial proves for grids with at least three elements in each direction that velocities at all nodes and pressures at the corners up to one constant are determined, and that nothing else is. The system is symmetric but indefinite, so nothing is claimed about convergence of conjugate gradients. Exact arithmetic; abs is the one of double."
 },
 "C136": {
  "status": "proved",
  "note": "C136_kernels_defined, C136_kernels, one theorem per solver, C136_no_iteration for a bound of zero iterations and C136_solves. This removes the simplification of Model/Krylov that vectors have a fixed length. Exact arithmetic; ILU0 itself, which takes no vector, is in C16."
 },
 "C137": {
  "status": "proved",
  "note": "One theorem per routine, C137_symmetric and C137_rigid for the stored matrices, C137_no_points for the excluded rules. This removes for these routines the simplifications of Model/Element (Mathlib matrices, pairs as indices, collected factors). Exact arithmetic; the tables of shape functions and rules are handed over as objects of the class."
 },
 "C138": {
  "status": "proved",
  "note": "C138_evaluation, C138_run (any tables), C138_sound (positive definite tensors in the box), C138_solid and C138_constant (when that holds), C138_program (the literals of the program). The tables of tensors are an input: the cell analyses that make them are C116 to C118. Positive definite tensors of the unit cells alone do not suffice with six sizes, see C121. MMA may fail to return (C83), which is an ending of its own."
 },
 "C139": {
  "status": "proved",
  "note": "C139_mma and C139_conlin (refinement of the model of fixed size, from which C48, C49, C51 and C83 to C87 carry over), C139_made (constructors and SetParameters), C139_safe, C139_conlin_safe, C139_calls, C139_short, C139_short_weights, C139_conlin_short. This removes the simplification of Model/MMA that vectors have a fixed length and that divisors are tested in groups. Exact arithmetic; a call may fail to return, which is the outcome `running`."
 },
 "C140": {
  "status": "proved",
  "note": "One theorem per routine (C140_consistentMass to C140_massSUPG), C140_wrong_size, C140_symmetric, C140_still. This removes for these routines the simplifications of Model/Element and Model/Fluid (Mathlib matrices, collected factors). Exact arithmetic; the quotient by k = 0 in alpha stays the value the comparison with 3 treats as large, see Model/Fluid."
 },
 "C141": {
  "status": "proved",
  "note": "One theorem per routine (C141_stokesStiffness to C141_pressurePoisson); _first and _long give the shorter and the longer lists; C141_symmetric, C141_short_accepted. The lumped mass and the pressure Poisson routine need at least one shape function, the surface force is over the reals because of the square root. This removes for these routines the simplifications of Model/Fluid (Mathlib matrices, collected factors). Exact arithmetic."
 },
 "C142": {
  "status": "proved",
  "note": "One theorem per routine (C142_planeTL, solidTL, planeUL, solidUL, pressureUL), _symmetric for the three symmetric tangents, C142_solidTL_calls and C142_solidUL_calls for the programs. The total Lagrange routines need 2 to be invertible (they divide by 2.0), the updated Lagrange ones are over the reals because of the logarithm. The statements that make the stress blocks and BNL are read before the first accumulation, which they do not use. Exact arithmetic."
 },
 "C143": {
  "status": "proved",
  "note": "C143_truss, C143_truss_core, C143_beam, C143_shell, C143_shell2 for the routines; _symmetric for the stored matrices; C143_shell_coordinates and C143_beam_directions for the assertions of VectorProduct and Vstack; _calls for the programs. The statements that compute the rows, the constitutive matrix and the Jacobian are read in source order; only the point at which the zero accumulation matrix is made differs. Over the reals because of the square roots; exact arithmetic."
 },
 "C144": {
  "status": "proved",
  "note": "C144_object, C144_returns, C144_defined, C144_zero, C144_empty for the object; C144_sign, C144_void, C144_sharpen, C144_grayness, C144_step, C144_identity for the parameter. Real arithmetic, tanh is the real function; with doubles tanh reaches 1 for large arguments and the strict statements of C45 fail there, those here are not strict."
 },
 "C145": {
  "status": "proved",
  "note": "C145_conditions, C145_stationary for every exponent; C145_trial, C145_update, C145_descent for the exponent 1/2 of the samples; C145_matches for the approximation; C145_density and C145_truss for all passes of the runs of the two programs; C145_second for the existence of a second pass, with a bar that is pulled as example. Exact arithmetic."
 },
 "C146": {
  "status": "proved",
  "note": "C146_never, C146_returns_iff for the object; C146_pass, C146_stuck, C146_second_iff, C146_ends, C146_small for the truss, with a pulled bar and several limits as examples; C146_density_pass, C146_density_stuck, C146_density_second_iff, C146_density_ends, C146_density_small for densities, with one element and several limits as examples. Exact arithmetic: in floating point the upper end of the interval underflows after about 1100 halvings and NaN ends the loop."
 },
 "C147": {
  "status": "proved",
  "note": "C147_bracket for the object; C147_weight, C147_above, C147_between, C147_ends for the truss program, with the pulled bar and a limit of one half as example: its program ends; C147_density, C147_density_pass for the density program, with one element as example. Exact arithmetic."
 },
 "C148": {
  "status": "proved",
  "note": "C148_loop for any problem; C148_beam, C148_balls, C148_two_bars for the programs, with the derivatives of all their functions. Whether an update returns is left open, as in C83. Exact arithmetic."
 }
}
