{
 "claims": [
  {
   "property": "C01",
   "status": "proved",
   "theorems": [
    "Pansfem.C01_every_object",
    "Pansfem.C01_every_vector",
    "Pansfem.C01_mat_read",
    "Pansfem.C01_mat_read_fails",
    "Pansfem.C01_mat_write",
    "Pansfem.C01_mat_write_fails",
    "Pansfem.C01_vec_read",
    "Pansfem.C01_vec_read_fails",
    "Pansfem.C01_vec_write",
    "Pansfem.C01_vec_write_fails",
    "Pansfem.C01_mat_zeros",
    "Pansfem.C01_vec_zeros",
    "Pansfem.C01_mat_of_vec",
    "Pansfem.C01_vec_of_mat",
    "Pansfem.C01_vec_of_mat_fails",
    "Pansfem.C01_mat_add",
    "Pansfem.C01_mat_add_fails",
    "Pansfem.C01_mat_sub",
    "Pansfem.C01_mat_sub_fails",
    "Pansfem.C01_mat_neg",
    "Pansfem.C01_mat_smul",
    "Pansfem.C01_mat_sdiv",
    "Pansfem.C01_vec_add",
    "Pansfem.C01_vec_sub",
    "Pansfem.C01_vec_neg",
    "Pansfem.C01_vec_smul",
    "Pansfem.C01_vec_sdiv",
    "Pansfem.C01_vec_dot",
    "Pansfem.C01_vec_binary_fails",
    "Pansfem.C01_mat_mul",
    "Pansfem.C01_mat_mul_fails",
    "Pansfem.C01_mat_vec",
    "Pansfem.C01_mat_vec_fails",
    "Pansfem.C01_outer",
    "Pansfem.C01_outer_fails",
    "Pansfem.C01_cross",
    "Pansfem.C01_cross_fails",
    "Pansfem.C01_normSq",
    "Pansfem.C01_mat_transpose",
    "Pansfem.C01_vec_transpose",
    "Pansfem.C01_vec_vstack",
    "Pansfem.C01_mat_vstack",
    "Pansfem.C01_mat_vstack_fails",
    "Pansfem.C01_mat_hstack",
    "Pansfem.C01_mat_hstack_fails",
    "Pansfem.C01_mat_block",
    "Pansfem.C01_mat_block_fails",
    "Pansfem.C01_vec_segment",
    "Pansfem.C01_vec_segment_fails",
    "Pansfem.C01_diagonal",
    "Pansfem.C01_identity"
   ],
   "note": "Exact scalars. Success equations against Mathlib matrices, and failure iff shape/bounds mismatch for well formed objects."
  },
  {
   "property": "C02",
   "status": "proved",
   "theorems": [
    "Pansfem.C02_cofactor",
    "Pansfem.C02_determinant",
    "Pansfem.C02_determinant_fails"
   ],
   "note": "All sizes, by induction on the size; failure iff empty or not square."
  },
  {
   "property": "C03",
   "status": "proved",
   "theorems": [
    "Pansfem.C03_inverse",
    "Pansfem.C03_inverse_two_sided",
    "Pansfem.C03_inverse_fails"
   ],
   "note": "All sizes; result is Mathlib's inverse and a two-sided inverse; undefined iff determinant is zero or the matrix is empty or not square."
  },
  {
   "property": "C04",
   "status": "partial",
   "theorems": [
    "Pansfem.C04_partial",
    "Pansfem.C04_empty_partial",
    "Pansfem.C04_default_false",
    "Pansfem.C04_default_matrix_false",
    "Pansfem.C04_leak_false"
   ],
   "note": "False as stated: the default constructors leave the pointer uninitialised and the destructor releases it (C04_default_false, C04_default_matrix_false); assignment to Vector(0) loses its block (C04_leak_false). C04_partial: with no default-constructed object destroyed before assignment nothing is released twice or used after release and every block with elements is released exactly once; C04_empty_partial: the full claim if nothing is assigned to an empty object owning a block."
  },
  {
   "property": "C05",
   "status": "proved",
   "theorems": [
    "Pansfem.C05_lil_history",
    "Pansfem.C05_lil_set_get",
    "Pansfem.C05_lil_fails"
   ],
   "note": "Any history of writes; flags; failure iff row out of range."
  },
  {
   "property": "C06",
   "status": "proved",
   "theorems": [
    "Pansfem.C06_csr_history",
    "Pansfem.C06_csr_set_get",
    "Pansfem.C06_csr_sorted",
    "Pansfem.C06_csr_fails"
   ],
   "note": "Any history of writes, through std::lower_bound's halving loop; rows stay sorted and pointers consistent."
  },
  {
   "property": "C07",
   "status": "proved",
   "theorems": [
    "Pansfem.C07_csr_of_lil",
    "Pansfem.C07_lil_of_csr",
    "Pansfem.C07_round_trip",
    "Pansfem.C07_sort_unique"
   ],
   "note": "Both directions and the round trip; independence of the sorting algorithm."
  },
  {
   "property": "C08",
   "status": "proved",
   "theorems": [
    "Pansfem.C08_lil_mulVec",
    "Pansfem.C08_lil_mulVec_fails",
    "Pansfem.C08_csr_mulVec",
    "Pansfem.C08_csr_parallel",
    "Pansfem.C08_csr_parallel_finishes",
    "Pansfem.C08_csr_parallel_product"
   ],
   "note": "Sequential product equals the mathematical product; every completed interleaving of load/store steps of the parallel rows equals the sequential result with no arithmetic laws assumed; completion under any schedule that runs every row often enough. Requires stored columns in range (no check in CSR.h)."
  },
  {
   "property": "C09",
   "status": "proved",
   "theorems": [
    "Pansfem.C09_lil_add",
    "Pansfem.C09_lil_sub",
    "Pansfem.C09_csr_add",
    "Pansfem.C09_csr_sub",
    "Pansfem.C09_shape_fails",
    "Pansfem.C09_lil_smul",
    "Pansfem.C09_lil_sdiv",
    "Pansfem.C09_csr_smul",
    "Pansfem.C09_csr_sdiv"
   ],
   "note": "Entrywise sums, differences, scalings for both formats; shape mismatch fails."
  },
  {
   "property": "C10",
   "status": "proved",
   "theorems": [
    "Pansfem.C10_factorisation",
    "Pansfem.C10_solve_sound",
    "Pansfem.C10_multipliers",
    "Pansfem.C10_solve",
    "Pansfem.C10_singular"
   ],
   "note": "All sizes, exact ordered field: PA=LU with a permutation, LU+SolveLU succeed and solve for every non-singular matrix, and a singular matrix never yields a result."
  },
  {
   "property": "C11",
   "status": "proved",
   "theorems": [
    "Pansfem.C11_residual",
    "Pansfem.C11_certificate",
    "Pansfem.C11_no_iteration"
   ],
   "note": "Exact reals. Residual identity after any number of iterations; the printed message is equivalent to the residual test on the returned vector (itrmax > 0)."
  },
  {
   "property": "C12",
   "status": "proved",
   "theorems": [
    "Pansfem.C12_conjugate",
    "Pansfem.C12_defined",
    "Pansfem.C12_finite",
    "Pansfem.C12_converges",
    "Pansfem.C12_zero_rhs"
   ],
   "note": "Orthogonality, conjugacy, definedness and termination for every symmetric positive definite matrix; a zero right-hand side is shown to divide by zero at once."
  },
  {
   "property": "C13",
   "status": "proved",
   "theorems": [
    "Pansfem.C13_residual",
    "Pansfem.C13_preconditioned_residual",
    "Pansfem.C13_residual2",
    "Pansfem.C13_bicgstab",
    "Pansfem.C13_bicgstab2",
    "Pansfem.C13_ilu0BiCGSTAB",
    "Pansfem.C13_scalingBiCGSTAB"
   ],
   "note": "All four BiCGSTAB variants, any preconditioner, any number of iterations."
  },
  {
   "property": "C14",
   "status": "proved",
   "theorems": [
    "Pansfem.C14_residual",
    "Pansfem.C14_ilu0CG",
    "Pansfem.C14_scalingCG",
    "Pansfem.C14_sorCG",
    "Pansfem.C14_scalingCG_converges"
   ],
   "note": "All three variants, any preconditioner; ScalingCG moreover terminates for every symmetric positive definite matrix."
  },
  {
   "property": "C15",
   "status": "proved",
   "theorems": [
    "Pansfem.C15_solve"
   ],
   "note": "All sizes: PreILU0 returns the unique solution of L U x = b for the stored factors."
  },
  {
   "property": "C16",
   "status": "proved",
   "theorems": [
    "Pansfem.C16_factorisation",
    "Pansfem.C16_complete"
   ],
   "note": "All sizes and patterns: on stored positions (LU)_ij = a_ij, pattern unchanged; with a full pattern LU = A; success whenever diagonals are stored and no pivot vanishes."
  },
  {
   "property": "C17",
   "status": "proved",
   "theorems": [
    "Pansfem.C17_fixed_point",
    "Pansfem.C17_zero_diagonal",
    "Pansfem.C17_stays"
   ],
   "note": "All sizes: fixed points of a SOR sweep with relaxation factor other than 0 are exactly the solutions when the diagonal has no zero; a zero diagonal makes the sweep undefined; solutions stay."
  },
  {
   "property": "C18",
   "status": "proved",
   "theorems": [
    "Pansfem.C18_recurrence",
    "Pansfem.C18_last",
    "Pansfem.C18_orthonormal",
    "Pansfem.C18_at_most_n",
    "Pansfem.C18_restart",
    "Pansfem.C18_ritz"
   ],
   "note": "Exact reals. Recurrence for any matrix, orthonormality for symmetric ones, at most n steps, RestartLanczos equals Lanczos, Ritz residual identity."
  },
  {
   "property": "C19",
   "status": "proved",
   "theorems": [
    "Pansfem.C19_solve",
    "Pansfem.C19_defined",
    "Pansfem.C19_iteration"
   ],
   "note": "All sizes: no zero pivot => solves; iterates are unit vectors with (T - lambda) y' = c y."
  },
  {
   "property": "C20",
   "status": "proved",
   "theorems": [
    "Pansfem.C20_renumbering",
    "Pansfem.C20_increasing",
    "Pansfem.C20_range",
    "Pansfem.C20_idempotent"
   ],
   "note": "All table shapes and markings."
  },
  {
   "property": "C21",
   "status": "proved",
   "theorems": [
    "Pansfem.C21_setDirichlet",
    "Pansfem.C21_defined",
    "Pansfem.C21_marks",
    "Pansfem.C21_remove"
   ],
   "note": "All tables and lists; also when the call is defined (subscripts in range)."
  },
  {
   "property": "C22",
   "status": "partial",
   "theorems": [
    "Pansfem.C22_numbers",
    "Pansfem.C22_ties_partial",
    "Pansfem.C22_defined",
    "Pansfem.C22_ties_false"
   ],
   "note": "The tie clause is false as stated: a chain of pairs leaves a slave with a number other than its master's (C22_ties_false). Proved when no master is itself a slave and each slave has one master (C22_ties_partial); the numbering clause is proved for all lists."
  },
  {
   "property": "C23",
   "status": "proved",
   "theorems": [
    "Pansfem.C23_KFe",
    "Pansfem.C23_KF",
    "Pansfem.C23_KF_fields",
    "Pansfem.C23_K",
    "Pansfem.C23_Fe",
    "Pansfem.C23_Fu",
    "Pansfem.C23_neumann"
   ],
   "note": "Every overload, any ring, any previous contents; entries outside the system are not touched because the result stays well formed with the same dimensions."
  },
  {
   "property": "C24",
   "status": "proved",
   "theorems": [
    "Pansfem.C24_order",
    "Pansfem.C24_symmetric"
   ],
   "note": "All permutations of a list of calls; symmetry from any symmetric start."
  },
  {
   "property": "C25",
   "status": "proved",
   "theorems": [
    "Pansfem.C25_disassembling",
    "Pansfem.C25_tied",
    "Pansfem.C25_defined"
   ],
   "note": "All tables and results."
  },
  {
   "property": "C26",
   "status": "proved",
   "theorems": [
    "Pansfem.C26_full_system"
   ],
   "note": "End to end over any ring; the hypothesis K x = F is what C10-C16 establish for the solvers."
  },
  {
   "property": "C27",
   "status": "proved",
   "theorems": [
    "Pansfem.C27_sum_N",
    "Pansfem.C27_sum_dNdr"
   ],
   "note": "Nine families, any field of characteristic zero, all parametric points."
  },
  {
   "property": "C28",
   "status": "partial",
   "theorems": [
    "Pansfem.C28_nodal_partial",
    "Pansfem.C28_cubic20_false",
    "Pansfem.C28_cubic20_partial"
   ],
   "note": "False for ShapeFunction20Cubic: its Points table has a spurious entry 12, so 21 points and a shifted tail (C28_cubic20_false). Proved for the other eight families and for the 20-node brick with that entry removed."
  },
  {
   "property": "C29",
   "status": "proved",
   "theorems": [
    "Pansfem.C29_derivative"
   ],
   "note": "Nine families over the reals, all points."
  },
  {
   "property": "C30",
   "status": "proved",
   "theorems": [
    "Pansfem.C30_affine",
    "Pansfem.C30_gradient"
   ],
   "note": "Nine families, any node positions and affine field; gradient where the Jacobian does not vanish."
  },
  {
   "property": "C31",
   "status": "proved",
   "theorems": [
    "Pansfem.C31_gauss1Line",
    "Pansfem.C31_gauss2Line",
    "Pansfem.C31_newtonCotes1Line",
    "Pansfem.C31_newtonCotes3Line",
    "Pansfem.C31_newtonCotes5Line",
    "Pansfem.C31_newtonCotes7Line",
    "Pansfem.C31_gauss1Square",
    "Pansfem.C31_gauss4Square",
    "Pansfem.C31_gauss9Square",
    "Pansfem.C31_gauss8Cubic",
    "Pansfem.C31_gauss27Cubic",
    "Pansfem.C31_gauss1Triangle",
    "Pansfem.C31_gauss3Triangle",
    "Pansfem.C31_gauss1Tetrahedron"
   ],
   "note": "All fourteen rules against Lebesgue interval integrals: lines degree 1/3/5/7, squares and cubes 1/3/5 per variable, triangle 1/2 and tetrahedron 1 in total degree. sqrt and cbrt are exact."
  },
  {
   "property": "C32",
   "status": "proved",
   "theorems": [
    "Pansfem.C32_planeStiffness",
    "Pansfem.C32_planeStrain",
    "Pansfem.C32_planeStress",
    "Pansfem.C32_SRI",
    "Pansfem.C32_planeStiffnessBbar",
    "Pansfem.C32_Bbar",
    "Pansfem.C32_planeStiffnessWilsonTaylor",
    "Pansfem.C32_WilsonTaylor",
    "Pansfem.C32_solid",
    "Pansfem.C32_heatTransfer",
    "Pansfem.C32_diffusion",
    "Pansfem.C32_rdConsistentMass",
    "Pansfem.C32_planeMass",
    "Pansfem.C32_heatCapacity",
    "Pansfem.C32_truss",
    "Pansfem.C32_returned",
    "Pansfem.C32_planeStrain_returned",
    "Pansfem.C32_planeStrain_defined",
    "Pansfem.C32_planeStress_defined",
    "Pansfem.C32_solid_defined",
    "Pansfem.C32_beam",
    "Pansfem.C32_shell",
    "Pansfem.C32_shell2",
    "Pansfem.C32_stokes",
    "Pansfem.C32_stokesMass",
    "Pansfem.C32_brinkman",
    "Pansfem.C32_pressurePoisson"
   ],
   "note": "All listed routines, plus mass, Brinkman and pressure-equation matrices; also stated for the matrix returned to the caller (C32_returned)."
  },
  {
   "property": "C33",
   "status": "proved",
   "theorems": [
    "Pansfem.C33_planeStiffness",
    "Pansfem.C33_planeStrain",
    "Pansfem.C33_planeStress",
    "Pansfem.C33_SRI",
    "Pansfem.C33_planeStiffnessBbar",
    "Pansfem.C33_Bbar",
    "Pansfem.C33_planeStiffnessWilsonTaylor",
    "Pansfem.C33_WilsonTaylor",
    "Pansfem.C33_solid",
    "Pansfem.C33_heatTransfer",
    "Pansfem.C33_diffusion",
    "Pansfem.C33_truss",
    "Pansfem.C33_equilibrium",
    "Pansfem.C33_planeStrain_balance"
   ],
   "note": "Every shape family (Complete is proved for all of them), every rule and constitutive matrix; plane strain (standard, SRI, B-bar, Wilson-Taylor), plane stress, solid, truss, conduction, diffusion; plus equilibrium of the nodal forces."
  },
  {
   "property": "C34",
   "status": "proved",
   "theorems": [
    "Pansfem.C34_planeStiffness",
    "Pansfem.C34_planeStrain",
    "Pansfem.C34_planeStress",
    "Pansfem.C34_SRI",
    "Pansfem.C34_planeStiffnessBbar",
    "Pansfem.C34_Bbar",
    "Pansfem.C34_planeStiffnessWilsonTaylor",
    "Pansfem.C34_WilsonTaylor",
    "Pansfem.C34_solid",
    "Pansfem.C34_heatTransfer",
    "Pansfem.C34_diffusion",
    "Pansfem.C34_planeMass",
    "Pansfem.C34_heatCapacity",
    "Pansfem.C34_rdConsistentMass",
    "Pansfem.C34_zero_energy",
    "Pansfem.C34_triangle_kernel",
    "Pansfem.C34_quad_kernel",
    "Pansfem.C34_stress_zero_energy",
    "Pansfem.C34_quad_stress"
   ],
   "note": "Plane strain (standard, SRI, B-bar, Wilson-Taylor), plane stress, solid, conduction, diffusion, mass and capacity matrices; zero energy means zero strain at the integration points, and for the triangle and for every four-node quadrilateral with positive Jacobians at the four points (C34_quad_kernel for plane strain, C34_quad_stress for plane stress) exactly the rigid motions."
  },
  {
   "property": "C35",
   "status": "proved",
   "theorems": [
    "Pansfem.C35_Dvol_add_Ddev",
    "Pansfem.C35_SRI",
    "Pansfem.C35_planeStiffnessBbar",
    "Pansfem.C35_Bbar"
   ],
   "note": "Equality of the routines as partial functions, over any field of characteristic zero."
  },
  {
   "property": "C36",
   "status": "proved",
   "theorems": [
    "Pansfem.C36_planeMass",
    "Pansfem.C36_planeBodyForce",
    "Pansfem.C36_heatCapacity",
    "Pansfem.C36_rdConsistentMass",
    "Pansfem.C36_rdLumpedMass",
    "Pansfem.C36_planeSurfaceForce",
    "Pansfem.C36_heatSurfaceFlux",
    "Pansfem.C36_edgeLength_line2",
    "Pansfem.C36_area_triangle3"
   ],
   "note": "For every family; edge length and triangle area are shown to be the geometric ones."
  },
  {
   "property": "C37",
   "status": "partial",
   "theorems": [
    "Pansfem.C37_planeStrainTL_partial",
    "Pansfem.C37_solidTL",
    "Pansfem.C37_planeStrainUL_partial",
    "Pansfem.C37_solidUL",
    "Pansfem.C37_planeStrainTL_false",
    "Pansfem.C37_planeStrainTL_translation",
    "Pansfem.C37_solidTL_translation",
    "Pansfem.C37_planeStrainUL_translation",
    "Pansfem.C37_solidUL_translation"
   ],
   "note": "Solid elements: proved (Total and Updated Lagrange). Plane strain elements: proved up to the thickness, which both nonlinear routines ignore, so the claim is false for a thickness other than one (C37_planeStrainTL_false). Translations: proved for all four, for shape functions whose derivatives sum to zero."
  },
  {
   "property": "C38",
   "status": "proved",
   "theorems": [
    "Pansfem.C38_planeStrain",
    "Pansfem.C38_solid"
   ],
   "note": "The tangent is minus the Jacobian (directional derivatives in every direction) of the returned vector, which is minus the internal force. Also for the solid element. Exact real arithmetic."
  },
  {
   "property": "C39",
   "status": "partial",
   "theorems": [
    "Pansfem.C39_corrected_partial",
    "Pansfem.C39_inviscid_partial",
    "Pansfem.C39_iff_partial",
    "Pansfem.C39_false"
   ],
   "note": "False as stated (C39_false): the viscous cross terms are in the diagonal velocity blocks of the matrix, while the residual couples the two velocities. Proved: the claim holds exactly when these terms vanish (C39_iff_partial), in particular without viscosity, and the Jacobian with the terms moved (C39_corrected_partial)."
  },
  {
   "property": "C40",
   "status": "partial",
   "theorems": [
    "Pansfem.C40_coupled_partial",
    "Pansfem.C40_single_partial",
    "Pansfem.C40_false"
   ],
   "note": "False for more than one dof per node (C40_false): all dofs of a node get the same local number, so assembling couples them. Proved: what is assembled in general (alpha for every pair of listed dofs of the same node), and the claim for one dof per node."
  },
  {
   "property": "C41",
   "status": "proved",
   "theorems": [
    "Pansfem.C41_interpolation",
    "Pansfem.C41_repeated",
    "Pansfem.C41_derivative"
   ],
   "note": "Distinct abscissae of any number; a repeated abscissa is an undefined outcome (C41_repeated). Derivatives over the reals. Exact arithmetic."
  },
  {
   "property": "C42",
   "status": "proved",
   "theorems": [
    "Pansfem.C42_nodal",
    "Pansfem.C42_orphan",
    "Pansfem.C42_nodal_const",
    "Pansfem.C42_nodal_bounds",
    "Pansfem.C42_elemental",
    "Pansfem.C42_elemental_const",
    "Pansfem.C42_elemental_bounds"
   ],
   "note": "Both overloads (numbers, vectors). A node without element divides by zero (C42_orphan). Exact arithmetic."
  },
  {
   "property": "C43",
   "status": "proved",
   "theorems": [
    "Pansfem.C43_mean",
    "Pansfem.C43_shares",
    "Pansfem.C43_const",
    "Pansfem.C43_undefined",
    "Pansfem.C43_share_nonneg",
    "Pansfem.C43_bounds",
    "Pansfem.C43_monotone"
   ],
   "note": "DensityFilter's result is the mean with the shares of the neighbours (C43_mean, C43_shares, C43_share_nonneg); constants kept (C43_const), bounds (C43_bounds), monotone (C43_monotone). Bounds and monotonicity need non-negative weights with positive sum, as convexity does. A zero weight sum divides by zero (C43_undefined)."
  },
  {
   "property": "C44",
   "status": "partial",
   "theorems": [
    "Pansfem.C44_density_partial",
    "Pansfem.C44_density_sharp",
    "Pansfem.C44_density_false",
    "Pansfem.C44_slope",
    "Pansfem.C44_heaviside_partial",
    "Pansfem.C44_heaviside_false"
   ],
   "note": "False as stated: GetFilteredSensitivitis applies the filter itself to df/drho instead of its transpose, and the two differ as soon as weight sums differ between elements (C44_density_false, C44_heaviside_false: strip of three elements with equal symmetric weights). Proved where the shares are symmetric (C44_density_partial, C44_heaviside_partial) and that this condition is necessary for linear functions (C44_density_sharp); the slope of the projection used by HeavisideFilter is its derivative (C44_slope)."
  },
  {
   "property": "C45",
   "status": "proved",
   "theorems": [
    "Pansfem.C45_zero",
    "Pansfem.C45_half",
    "Pansfem.C45_one",
    "Pansfem.C45_strictMono",
    "Pansfem.C45_range",
    "Pansfem.C45_beta_zero",
    "Pansfem.C45_filter",
    "Pansfem.C45_variables",
    "Pansfem.C45_monotone"
   ],
   "note": "Projection keeps 0, 1/2, 1 (C45_zero, C45_half, C45_one), is strictly increasing (C45_strictMono), maps [0,1] into [0,1] (C45_range); HeavisideFilter is the projection after the density filter (C45_filter), keeps [0,1] (C45_variables) and is monotone (C45_monotone). beta = 0 divides by zero (C45_beta_zero). Exact tanh over the reals."
  },
  {
   "property": "C46",
   "status": "partial",
   "theorems": [
    "Pansfem.C46_move_partial",
    "Pansfem.C46_box_partial",
    "Pansfem.C46_skip",
    "Pansfem.C46_box_false",
    "Pansfem.C46_move_false"
   ],
   "note": "False as stated: xmin and xmax are stored but never used, 0 and 1 are hard-coded (C46_box_false: a variable at xmin = 0.01 moves to 0.0085), and a starting interval that is already short makes the design zero (C46_skip, C46_move_false). Proved: when the bisection is entered and the variables are in [0,1] every new variable is within the move limits of the old one and in [0,1] (C46_move_partial), hence within limits with xmin <= 0 and xmax >= 1 (C46_box_partial)."
  },
  {
   "property": "C47",
   "status": "partial",
   "theorems": [
    "Pansfem.C47_terminates_partial",
    "Pansfem.C47_returns",
    "Pansfem.C47_never",
    "Pansfem.C47_false",
    "Pansfem.C47_zero",
    "Pansfem.C47_raised"
   ],
   "note": "Proved for lambdamin > 0, with one bound for all callbacks, stateful ones included (C47_terminates_partial), and that a design is returned (C47_returns). False for lambdamin = 0, the value all samples use: when the callback never reports a violation the relative width stays 1 and the loop never ends (C47_never, C47_false). For lambdamin = 0 the loop ends if the callback reports a violation for all small multipliers (C47_zero); for negative derivatives of the objective it is enough that it does so for the design with all variables at their upper move limits (C47_raised). The statement is about exact arithmetic; in floating point the interval underflows after about 1100 passes and NaN ends the loop."
  },
  {
   "property": "C48",
   "status": "proved",
   "theorems": [
    "Pansfem.C48_step",
    "Pansfem.C48_start",
    "Pansfem.C48_pass",
    "Pansfem.C48_passes",
    "Pansfem.C48_inner",
    "Pansfem.C48_mma",
    "Pansfem.C48_calls"
   ],
   "note": "C48_step holds for an arbitrary direction; C48_passes for any number of passes of the inner loop; C48_mma and C48_calls for one and for any sequence of calls of UpdateVariables. Hypotheses: xmin < xmax, the design in the box, 0 <= albefa < 1, move > 0. Exact real arithmetic."
  },
  {
   "property": "C49",
   "status": "proved",
   "theorems": [
    "Pansfem.C49_value",
    "Pansfem.C49_gradient",
    "Pansfem.C49_convex"
   ],
   "note": "Value for the constraints (the constant of the objective is dropped by the code), directional derivatives for objective and constraints, convexity between the asymptotes."
  },
  {
   "property": "C50",
   "status": "proved",
   "theorems": [
    "Pansfem.C50_sound",
    "Pansfem.C50_solve",
    "Pansfem.C50_empty"
   ],
   "note": "All sizes: soundness, success for every non-singular non-empty system, empty system is undefined."
  },
  {
   "property": "C51",
   "status": "proved",
   "theorems": [
    "Pansfem.C51_passes",
    "Pansfem.C51_conlin",
    "Pansfem.C51_calls"
   ],
   "note": "Any number of passes, one call and any sequence of calls. Exact real arithmetic."
  },
  {
   "property": "C52",
   "status": "proved",
   "theorems": [
    "Pansfem.C52_mesh",
    "Pansfem.C52_loop",
    "Pansfem.C52_nodes",
    "Pansfem.C52_area",
    "Pansfem.C52_ccw"
   ],
   "note": "C52_mesh/C52_loop/C52_nodes/C52_area/C52_ccw for all numbers of divisions and sizes."
  },
  {
   "property": "C53",
   "status": "proved",
   "theorems": [
    "Pansfem.C53_mesh",
    "Pansfem.C53_conforming"
   ],
   "note": "Every 8 node element is the 4 node element with middle nodes on its sides; neighbours share the middle node."
  },
  {
   "property": "C54",
   "status": "partial",
   "theorems": [
    "Pansfem.C54_delaunay",
    "Pansfem.C54_delaunay_assert",
    "Pansfem.C54_square",
    "Pansfem.C54_square2",
    "Pansfem.C54_ground",
    "Pansfem.C54_graded",
    "Pansfem.C54_annulus",
    "Pansfem.C54_squareCircle",
    "Pansfem.C54_squareAnnulus_partial",
    "Pansfem.C54_squareAnnulus_false",
    "Pansfem.C54_hole",
    "Pansfem.C54_sides",
    "Pansfem.C54_sides2",
    "Pansfem.C54_inner_circle"
   ],
   "note": "Proved for SquareMesh, SquareMesh2, AnnulusMesh, SquareCircleAnnulusMesh, SquareAnnulusMesh2, GrandStructure2D and the Delaunay mesher. False for SquareAnnulusMesh, whose GenerateFixedlist exchanges t and 1-t with respect to GenerateNodes (C54_squareAnnulus_false); what it does is C54_squareAnnulus_partial."
  },
  {
   "property": "C55",
   "status": "proved",
   "theorems": [
    "Pansfem.C55_mesh",
    "Pansfem.C55_wrap",
    "Pansfem.C55_rings",
    "Pansfem.C55_annulus",
    "Pansfem.C55_squareAnnulus",
    "Pansfem.C55_squareCircle",
    "Pansfem.C55_two"
   ],
   "note": "For at least three nodes on a ring (always so for the square rings); C55_two shows that two do not suffice."
  },
  {
   "property": "C56",
   "status": "proved",
   "theorems": [
    "Pansfem.C56_bars",
    "Pansfem.C56_distance"
   ],
   "note": "Squared distances in any ordered field, Euclidean distance over the reals."
  },
  {
   "property": "C57",
   "status": "proved",
   "theorems": [
    "Pansfem.C57_nodes",
    "Pansfem.C57_elements",
    "Pansfem.C57_dirichlet",
    "Pansfem.C57_neumann",
    "Pansfem.C57_periodic",
    "Pansfem.C57_unopened",
    "Pansfem.C57_initial"
   ],
   "note": "Character level: getline, operator>>, stoi, stod over the list of the characters of the file, with eof and fail states. The value of a decimal text is a parameter rd of the theorems. C57_nodes, C57_elements, C57_dirichlet, C57_neumann, C57_periodic, C57_initial; C57_unopened for a file that does not open."
  },
  {
   "property": "C58",
   "status": "partial",
   "theorems": [
    "Pansfem.C58_nodes",
    "Pansfem.C58_elements",
    "Pansfem.C58_file",
    "Pansfem.C58_exact_partial",
    "Pansfem.C58_exact_false",
    "Pansfem.C58_points_lines",
    "Pansfem.C58_cells_lines",
    "Pansfem.C58_file_lines"
   ],
   "note": "Proved for all meshes with val, the value a number has after it is written and read: ImportFromVTK2 (C58_nodes, C58_elements, C58_file) and the line reader ImportFromVTK (C58_points_lines, C58_cells_lines, C58_file_lines). 'Unchanged' (val = id) is false for any scalar type with more values than texts of the written length: C58_exact_false; C58_exact_partial gives the identity where the conversion is exact."
  },
  {
   "property": "C59",
   "status": "partial",
   "theorems": [
    "Pansfem.C59_swap",
    "Pansfem.C59_in",
    "Pansfem.C59_on",
    "Pansfem.C59_in_first",
    "Pansfem.C59_on_first",
    "Pansfem.C59_refine",
    "Pansfem.C59_step",
    "Pansfem.C59_history_partial",
    "Pansfem.C59_false"
   ],
   "note": "From a consistent triangulation (symmetric neighbours, counterclockwise elements, valid numbers) every single swap keeps neighbours, numbers and area (C59_swap); every insertion into an element or on a side with all swaps that follow ends and keeps everything, or comes to a swap made for the boundary that turns an element over (C59_in, C59_on); without the boundary neighbours in the mesh and for every midpoint insertion of the refinement there is no such swap (C59_in_first, C59_on_first, C59_refine). All histories of such steps: C59_history_partial. The code makes the swaps for the boundary without a look at the geometry: inserting a simple clockwise quadrilateral changes the total signed area (C59_false)."
  },
  {
   "property": "C60",
   "status": "proved",
   "theorems": [
    "Pansfem.C60_brackets",
    "Pansfem.C60_uninitialised"
   ],
   "note": "Exact reals. At most 45 halvings, bracket of relative length 1e-13; the all-zero case returns an uninitialised variable."
  },
  {
   "property": "C61",
   "status": "proved",
   "theorems": [
    "Pansfem.C61_bound"
   ],
   "note": "All sizes, Gershgorin argument over exact reals."
  },
  {
   "property": "C62",
   "status": "proved",
   "theorems": [
    "Pansfem.C62_count",
    "Pansfem.C62_eigenvalues",
    "Pansfem.C62_bisection"
   ],
   "note": "Exact real arithmetic. The roots of successive Sturm polynomials are shown to interlace strictly, so each sign change of the sequence adds exactly one root. Eigenvalues are defined by non-zero eigenvectors of the tridiagonal matrix, not by the polynomials."
  },
  {
   "property": "C63",
   "status": "proved",
   "theorems": [
    "Pansfem.C63_beam_energy",
    "Pansfem.C63_beam_nonneg",
    "Pansfem.C63_beam_rigid",
    "Pansfem.C63_shell_energy",
    "Pansfem.C63_shell2_energy",
    "Pansfem.C63_shell_nonneg",
    "Pansfem.C63_shell2_nonneg",
    "Pansfem.C63_shell_rigid",
    "Pansfem.C63_shell2_rigid",
    "Pansfem.C63_shell2_drilling"
   ],
   "note": "Exact real arithmetic. The strain energy is written with the displacement gradient of the interpolated field, independently of the B and P tables. Rigid motions use shape functions with partition of unity."
  },
  {
   "property": "C64",
   "status": "partial",
   "theorems": [
    "Pansfem.C64_stokes_rows",
    "Pansfem.C64_ns_rows",
    "Pansfem.C64_stokes_form",
    "Pansfem.C64_ns_form",
    "Pansfem.C64_stokes_nonneg",
    "Pansfem.C64_ns_nonneg",
    "Pansfem.C64_ns_rigid_partial",
    "Pansfem.C64_stokes_translation_partial",
    "Pansfem.C64_stokes_rotation_partial",
    "Pansfem.C64_stokes_false"
   ],
   "note": "NavierStokesStiffness: proved (dissipation 2*mu*eps:eps, no force on rigid velocities). StokesStiffness: non-negative and no force on translations, but false for rotations (C64_stokes_false): its off-diagonal blocks have the derivatives swapped, so a rotation w is charged 2*mu*w^2 per unit area (C64_stokes_rotation_partial)."
  },
  {
   "property": "C65",
   "status": "proved",
   "theorems": [
    "Pansfem.C65_adjoint"
   ],
   "note": "The Jacobian is the directional derivative (HasDerivAt) of the returned vector in every direction. Exact real arithmetic."
  },
  {
   "property": "C66",
   "status": "proved",
   "theorems": [
    "Pansfem.C66_residual",
    "Pansfem.C66_consistent",
    "Pansfem.C66_dissipates",
    "Pansfem.C66_pressure"
   ],
   "note": "Exact real arithmetic; divisions by zero in tau are undefined outcomes."
  },
  {
   "property": "C67",
   "status": "proved",
   "theorems": [
    "Pansfem.C67_skew",
    "Pansfem.C67_no_work",
    "Pansfem.C67_picard",
    "Pansfem.C67_divergence"
   ],
   "note": "Any field; no work needs characteristic zero."
  },
  {
   "property": "C68",
   "status": "proved",
   "theorems": [
    "Pansfem.C68_mass",
    "Pansfem.C68_lumped",
    "Pansfem.C68_poisson_constant",
    "Pansfem.C68_poisson_load",
    "Pansfem.C68_auxiliary_uniform",
    "Pansfem.C68_nextstep_constant"
   ],
   "note": "Symmetry of the pressure matrix is C32_pressurePoisson."
  },
  {
   "property": "C69",
   "status": "proved",
   "theorems": [
    "Pansfem.C69_advection_rows",
    "Pansfem.C69_advection_constant",
    "Pansfem.C69_supg_residual",
    "Pansfem.C69_supg_nonneg",
    "Pansfem.C69_shock_nonneg",
    "Pansfem.C69_supg_constant"
   ],
   "note": "Exact real arithmetic; divisions by zero in the element length are undefined outcomes."
  },
  {
   "property": "C70",
   "status": "proved",
   "theorems": [
    "Pansfem.C70_planeStrain_energy",
    "Pansfem.C70_planeStrain_symm",
    "Pansfem.C70_solid_energy",
    "Pansfem.C70_solid_symm",
    "Pansfem.C70_planeStrainUL_symm",
    "Pansfem.C70_solidUL_symm",
    "Pansfem.C70_planeStrainUL_energy",
    "Pansfem.C70_solidUL_energy"
   ],
   "note": "Total and Updated Lagrange, plane strain and solid. Stored energies: St Venant-Kirchhoff and compressible neo-Hooke. Exact real arithmetic."
  },
  {
   "property": "C71",
   "status": "proved",
   "theorems": [
    "Pansfem.C71_planeStrain",
    "Pansfem.C71_solid"
   ],
   "note": "Directional derivatives in every direction, at displacements with positive Jacobian. Exact real arithmetic, real logarithm."
  },
  {
   "property": "C72",
   "status": "proved",
   "theorems": [
    "Pansfem.C72_planeStrainTL",
    "Pansfem.C72_solidTL",
    "Pansfem.C72_planeStrainUL",
    "Pansfem.C72_solidUL"
   ],
   "note": "Rotations about the origin; with C37 translations these give all rigid motions. Total Lagrange also covers reflections."
  },
  {
   "property": "C73",
   "status": "proved",
   "theorems": [
    "Pansfem.C73_symm",
    "Pansfem.C73_jacobian",
    "Pansfem.C73_total",
    "Pansfem.C73_line2"
   ],
   "note": "The exact tangent of a single edge is not symmetric; the routine returns its symmetric part. Total load proved for any shape functions summing to one, and for the straight edge as pressure times deformed length, normal to it."
  },
  {
   "property": "C74",
   "status": "proved",
   "theorems": [
    "Pansfem.C74_area_affine",
    "Pansfem.C74_volume_affine",
    "Pansfem.C74_area_triangle3",
    "Pansfem.C74_area_square4",
    "Pansfem.C74_volume_tetrahedron4",
    "Pansfem.C74_volume_cubic8",
    "Pansfem.C74_center",
    "Pansfem.C74_center_translation",
    "Pansfem.C74_center_isoparametric"
   ],
   "note": "Affine images for all shape functions and rules; closed formulas for triangle3, square4 (all rules with the stated moments, checked for 1 and 4 points), tetrahedron4, cubic8 (parallelepipeds). Exact arithmetic."
  },
  {
   "property": "C75",
   "status": "proved",
   "theorems": [
    "Pansfem.C75_line2",
    "Pansfem.C75_gauss2Line",
    "Pansfem.C75_coordinates"
   ],
   "note": "Two-node lines; any rule exact of degree m, in particular all the rules of C31 on the line. Nodes with other than one coordinate fail an assertion (C75_coordinates)."
  },
  {
   "property": "C76",
   "status": "proved",
   "theorems": [
    "Pansfem.C76_sigmund",
    "Pansfem.C76_sigmund_zero",
    "Pansfem.C76_sigmund_uniform",
    "Pansfem.C76_borrvall",
    "Pansfem.C76_sigmund_sign",
    "Pansfem.C76_borrvall_bounds",
    "Pansfem.C76_borrvall_const"
   ],
   "note": "C76_sigmund, C76_sigmund_sign, C76_sigmund_uniform, C76_borrvall, C76_borrvall_bounds, C76_borrvall_const; a zero variable divides by zero (C76_sigmund_zero)."
  },
  {
   "property": "C77",
   "status": "proved",
   "theorems": [
    "Pansfem.C77_bracket",
    "Pansfem.C77_monotone",
    "Pansfem.C77_infeasible"
   ],
   "note": "C77_bracket, C77_monotone; the returned design may be the infeasible end (C77_infeasible)."
  },
  {
   "property": "C78",
   "status": "partial",
   "theorems": [
    "Pansfem.C78_positive_partial",
    "Pansfem.C78_negative",
    "Pansfem.C78_false"
   ],
   "note": "Proved for a positive sum (C78_positive_partial). False otherwise: the absolute value is missing in the denominator, so with a negative sum every value counts as converged (C78_negative, C78_false)."
  },
  {
   "property": "C79",
   "status": "proved",
   "theorems": [
    "Pansfem.C79_planeStiffness",
    "Pansfem.C79_planeStrain",
    "Pansfem.C79_planeStress",
    "Pansfem.C79_SRI",
    "Pansfem.C79_Bbar",
    "Pansfem.C79_solid",
    "Pansfem.C79_heatTransfer",
    "Pansfem.C79_diffusion",
    "Pansfem.C79_reaction",
    "Pansfem.C79_truss"
   ],
   "note": "Bbar and SRI need two rules that agree on the area of the element."
  },
  {
   "property": "C80",
   "status": "proved",
   "theorems": [
    "Pansfem.C80_solid",
    "Pansfem.C80_planeStrain",
    "Pansfem.C80_planeStress",
    "Pansfem.C80_tension",
    "Pansfem.C80_tension_solid",
    "Pansfem.C80_split"
   ],
   "note": "For plane stress with E = 0 every strain out of the plane is stress free, so this case is excluded there; C80_tension covers it."
  },
  {
   "property": "C81",
   "status": "partial",
   "theorems": [
    "Pansfem.C81_condensation",
    "Pansfem.C81_iff",
    "Pansfem.C81_parallelogram_partial",
    "Pansfem.C81_false"
   ],
   "note": "The code takes the Jacobian of the incompatible modes at the integration point instead of the centre, so constant stresses do work on the modes unless the element is a parallelogram: C81_false is a trapezoid with Gauss4Square that is too soft in simple shear. Proved: the least energy (C81_condensation), the exact condition for constant states (C81_iff), and that parallelograms meet it (C81_parallelogram_partial)."
  },
  {
   "property": "C82",
   "status": "proved",
   "theorems": [
    "Pansfem.C82_bodyForce",
    "Pansfem.C82_energy",
    "Pansfem.C82_check",
    "Pansfem.C82_unrelaxed",
    "Pansfem.C82_follow",
    "Pansfem.C82_cell"
   ],
   "note": "The cell problem enters as the balance of the summed loads tested with the characteristic displacements themselves."
  },
  {
   "property": "C83",
   "status": "proved",
   "theorems": [
    "Pansfem.C83_pass",
    "Pansfem.C83_inner",
    "Pansfem.C83_mma",
    "Pansfem.C83_conlin"
   ],
   "note": "Exact real arithmetic. Both reduced systems are proved nonsingular (quasi-definite and positive definite)."
  },
  {
   "property": "C84",
   "status": "partial",
   "theorems": [
    "Pansfem.C84_dual_partial",
    "Pansfem.C84_defect",
    "Pansfem.C84_primal_partial",
    "Pansfem.C84_descent",
    "Pansfem.C84_backtracking",
    "Pansfem.C84_false"
   ],
   "note": "Proved when there are more variables than constraints, and otherwise for one variable or all a zero. False otherwise (C84_false): MMA.h:304 and CONLIN.h:252 add the term a*a/Dlambday of the corner inside the loop over the variables, n times; C84_defect gives the exact error."
  },
  {
   "property": "C85",
   "status": "proved",
   "theorems": [
    "Pansfem.C85_exit"
   ],
   "note": "Exact real arithmetic; says nothing when the loop does not end."
  },
  {
   "property": "C86",
   "status": "proved",
   "theorems": [
    "Pansfem.C86_optimal",
    "Pansfem.C86_mma",
    "Pansfem.C86_conlin"
   ],
   "note": "Weak duality with the multipliers of the loop. Exact real arithmetic."
  },
  {
   "property": "C87",
   "status": "proved",
   "theorems": [
    "Pansfem.C87_value",
    "Pansfem.C87_gradient"
   ],
   "note": ""
  },
  {
   "property": "C88",
   "status": "proved",
   "theorems": [
    "Pansfem.C88_planeBodyForce",
    "Pansfem.C88_planeMass",
    "Pansfem.C88_heatCapacity",
    "Pansfem.C88_advectionMass",
    "Pansfem.C88_rdConsistentMass",
    "Pansfem.C88_reaction",
    "Pansfem.C88_advection",
    "Pansfem.C88_pressurePoissonK",
    "Pansfem.C88_pressurePoissonF",
    "Pansfem.C88_decoupledMass",
    "Pansfem.C88_auxiliaryVelocity",
    "Pansfem.C88_nextstepVelocity",
    "Pansfem.C88_planeSurfaceForce",
    "Pansfem.C88_heatSurfaceFlux",
    "Pansfem.C88_stokesSurfaceForce",
    "Pansfem.C88_stokesBodyForce",
    "Pansfem.C88_brinkman",
    "Pansfem.C88_stokesMass",
    "Pansfem.C88_continuity"
   ],
   "note": "Exact for every rule and every element, degenerate ones excepted where the gradient is used."
  },
  {
   "property": "C89",
   "status": "proved",
   "theorems": [
    "Pansfem.C89_values",
    "Pansfem.C89_isolation"
   ],
   "note": "Heap model with explicit blocks refines the value semantics used by the other models."
  },
  {
   "property": "C90",
   "status": "proved",
   "theorems": [
    "Pansfem.C90_annulus",
    "Pansfem.C90_squareAnnulus",
    "Pansfem.C90_squareCircle",
    "Pansfem.C90_graded",
    "Pansfem.C90_hole"
   ],
   "note": "For SquareAnnulusMesh2, whose edges do not contain the hole (C93), the area of the elements only."
  },
  {
   "property": "C91",
   "status": "proved",
   "theorems": [
    "Pansfem.C91_elements",
    "Pansfem.C91_edges",
    "Pansfem.C91_sides"
   ],
   "note": ""
  },
  {
   "property": "C92",
   "status": "proved",
   "theorems": [
    "Pansfem.C92_annulus",
    "Pansfem.C92_squareAnnulus"
   ],
   "note": "The graded mesh is part of C90_graded, the square mesh of C52_ccw."
  },
  {
   "property": "C93",
   "status": "partial",
   "theorems": [
    "Pansfem.C93_hole_partial",
    "Pansfem.C93_hole_false",
    "Pansfem.C93_no_width"
   ],
   "note": "All but the edges: GenerateEdges lists the outer boundary only, the sides of the hole are missing (C93_hole_false)."
  },
  {
   "property": "C94",
   "status": "proved",
   "theorems": [
    "Pansfem.C94_coordinate",
    "Pansfem.C94_ratio_one"
   ],
   "note": ""
  },
  {
   "property": "C95",
   "status": "partial",
   "theorems": [
    "Pansfem.C95_missing_partial",
    "Pansfem.C95_missing_false"
   ],
   "note": "False: the failed getline leaves the last field in str, which is assigned to all further components (C95_missing_false). Proved: what the components get in every case (C95_missing_partial)."
  },
  {
   "property": "C96",
   "status": "proved",
   "theorems": [
    "Pansfem.C96_point_vectors",
    "Pansfem.C96_point_scalars",
    "Pansfem.C96_cell_scalars",
    "Pansfem.C96_one_component"
   ],
   "note": "C96_point_vectors, C96_point_scalars, C96_cell_scalars, C96_one_component. Lines before are those which do not change the mode and are not the first line of the data set; with isheader the section line is found by the scan, without it the reader is already in the section."
  },
  {
   "property": "C97",
   "status": "partial",
   "theorems": [
    "Pansfem.C97_order_false",
    "Pansfem.C97_again_partial"
   ],
   "note": "False for every mesh: ImportPOINTS after ImportCELLS returns no points (C97_order_false). Proved: the call that found nothing sets the stream to the beginning, and the next ImportPOINTS returns the points (C97_again_partial)."
  },
  {
   "property": "C98",
   "status": "proved",
   "theorems": [
    "Pansfem.C98_same",
    "Pansfem.C98_neighbor",
    "Pansfem.C98_linked",
    "Pansfem.C98_again",
    "Pansfem.C98_delete"
   ],
   "note": "Hypothesis SidesOnce: every directed side belongs to one element. Elements that do not meet it (overlapping triangles) are outside the claim."
  },
  {
   "property": "C99",
   "status": "proved",
   "theorems": [
    "Pansfem.C99_nodes",
    "Pansfem.C99_corners",
    "Pansfem.C99_mesh"
   ],
   "note": "The new number of a set node is shown to be the number of set nodes before it."
  },
  {
   "property": "C100",
   "status": "proved",
   "theorems": [
    "Pansfem.C100_smoothing",
    "Pansfem.C100_area",
    "Pansfem.C100_halfplane",
    "Pansfem.C100_rounds"
   ],
   "note": "The walk returns to its start because the step to the next element is injective on the elements at the node; the area is a sum over outer sides."
  },
  {
   "property": "C101",
   "status": "partial",
   "theorems": [
    "Pansfem.C101_false",
    "Pansfem.C101_node_partial"
   ],
   "note": "False as stated: C101_false gives a node in a quadrilateral that is not convex, whose smoothing turns two elements over. C101_node_partial proves it for the move of a node with a convex polygon around it. Missing: polygons that are not convex, where it fails."
  },
  {
   "property": "C102",
   "status": "proved",
   "theorems": [
    "Pansfem.C102_refine",
    "Pansfem.C102_smooth",
    "Pansfem.C102_edges",
    "Pansfem.C102_round",
    "Pansfem.C102_fine",
    "Pansfem.C102_loop"
   ],
   "note": "The condition that no smoothing turns an element over is needed: C101_false. C102_loop relates the rounds to the loop with its exit test."
  },
  {
   "property": "C103",
   "status": "partial",
   "theorems": [
    "Pansfem.C103_longest",
    "Pansfem.C103_refine",
    "Pansfem.C103_exit_partial",
    "Pansfem.C103_false"
   ],
   "note": "The last part is false: C103_false gives a pentagon where the last smoothing leaves a side of squared length 42.4 with bound 6.5. Proved: the search (C103_longest), the refinement (C103_refine), and that all sides are within the bound before the last refinement and before the last smoothing (C103_exit_partial). Missing: the sides after that smoothing, where it fails."
  },
  {
   "property": "C104",
   "status": "proved",
   "theorems": [
    "Pansfem.C104_rough",
    "Pansfem.C104_kept",
    "Pansfem.C104_clean",
    "Pansfem.C104_ready",
    "Pansfem.C104_start",
    "Pansfem.C104_super"
   ],
   "note": "The order of corners on a boundary is stated with sublists, not with the index search of the code. C104_ready gives the hypothesis of C100 and C102; that the insertions always give such a mesh is false (C59_false)."
  },
  {
   "property": "C105",
   "status": "proved",
   "theorems": [
    "Pansfem.C105_matrix",
    "Pansfem.C105_pencil",
    "Pansfem.C105_residual",
    "Pansfem.C105_general",
    "Pansfem.C105_solves"
   ],
   "note": "Exact real arithmetic; the solutions are those of the ScalingCG model."
  },
  {
   "property": "C106",
   "status": "partial",
   "theorems": [
    "Pansfem.C106_orthonormal_partial",
    "Pansfem.C106_pairs_partial",
    "Pansfem.C106_all_partial",
    "Pansfem.C106_shifted",
    "Pansfem.C106_lanczos_pairs",
    "Pansfem.C106_lanczos",
    "Pansfem.C106_restart_partial",
    "Pansfem.C106_general_false"
   ],
   "note": "Proved for Lanczos and, with exact solutions, ShiftedInvertLanczos. False for GeneralShiftedInvertLanczos, which divides the first vector by its Euclidean norm: 5 x = lambda 4 x with shift 1 gives about 17/16 (C106_general_false, through CSR, ScalingCG and BisectionMethod). The _partial theorems assume that the diagonal of the shifted matrix has the same length in both norms."
  },
  {
   "property": "C107",
   "status": "partial",
   "theorems": [
    "Pansfem.C107_restart",
    "Pansfem.C107_general_partial",
    "Pansfem.C107_general_false"
   ],
   "note": "Proved for RestartLanczos. False for GeneralRestartShiftedInvertLanczos (Lanczos.h:303 subtracts a multiple of B q instead of q); C107_general_partial: a vector that is orthogonal already is left alone."
  },
  {
   "property": "C108",
   "status": "proved",
   "theorems": [
    "Pansfem.C108_solvers",
    "Pansfem.C108_result",
    "Pansfem.C108_succeeds",
    "Pansfem.C108_unloaded"
   ],
   "note": "Model/Program.lean composes the modelled routines in the order of the sample programs; solveStep keeps the solver's flag."
  },
  {
   "property": "C109",
   "status": "proved",
   "theorems": [
    "Pansfem.C109_heat",
    "Pansfem.C109_planeStrain"
   ],
   "note": "Model/ProgramMain.lean has the element loops of the two programs; C109_heat and C109_planeStrain, each with a worked mesh meeting all hypotheses."
  },
  {
   "property": "C110",
   "status": "proved",
   "theorems": [
    "Pansfem.C110_elementVector",
    "Pansfem.C110_elementVector2",
    "Pansfem.C110_reactions",
    "Pansfem.C110_work",
    "Pansfem.C110_balance",
    "Pansfem.C110_marks",
    "Pansfem.C110_free",
    "Pansfem.C110_planeStrain"
   ],
   "note": "Element data are any square matrices with tables numbering their rows; C110_planeStrain instantiates the element routine of the program."
  },
  {
   "property": "C111",
   "status": "proved",
   "theorems": [
    "Pansfem.C111_truss",
    "Pansfem.C111_density"
   ],
   "note": "One iteration of the loops, before filtering and update. The displacements are assumed in exact equilibrium (C108/C110 give it up to the tolerance of the solver); supports have zero displacement as in the programs. Reals for doubles, real power for pow."
  },
  {
   "property": "C112",
   "status": "proved",
   "theorems": [
    "Pansfem.C112_heat_solves",
    "Pansfem.C112_heat_exact",
    "Pansfem.C112_heat_run",
    "Pansfem.C112_heat_stable",
    "Pansfem.C112_heat_content",
    "Pansfem.C112_reaction_run",
    "Pansfem.C112_reaction_content",
    "Pansfem.C112_reaction_equilibrium",
    "Pansfem.C112_reaction_solves",
    "Pansfem.C112_reaction_mesh",
    "Pansfem.C112_step",
    "Pansfem.C112_still",
    "Pansfem.C112_run",
    "Pansfem.C112_exact",
    "Pansfem.C112_balance",
    "Pansfem.C112_stable",
    "Pansfem.C112_dissipated",
    "Pansfem.C112_content",
    "Pansfem.C112_growth"
   ],
   "note": "Exact steps are solutions of the equation of a step without solver error; computed steps meet it up to the tolerance of the solver. The advection-diffusion program is covered by the general theorems on runs (one joint assembling call), not instantiated. Output files are left out. Reals for doubles."
  },
  {
   "property": "C113",
   "status": "partial",
   "theorems": [
    "Pansfem.C113_pass",
    "Pansfem.C113_linear",
    "Pansfem.C113_solves",
    "Pansfem.C113_two_passes",
    "Pansfem.C113_boundarySteps",
    "Pansfem.C113_boundary",
    "Pansfem.C113_loop",
    "Pansfem.C113_steps",
    "Pansfem.C113_analysis_partial",
    "Pansfem.C113_small",
    "Pansfem.C113_false",
    "Pansfem.C113_prescribed_false",
    "Pansfem.C113_solid",
    "Pansfem.C113_solid_tangent",
    "Pansfem.C113_solid_newton",
    "Pansfem.C113_solid_small"
   ],
   "note": "False as stated, two ways. normR is the sum of the squares of R, so the test bounds the square of the out-of-balance forces: loads below 1e-10 are taken for converged at zero displacement (C113_false, C113_small, C113_solid_small with a cube). Assembling is given the total field u, so R contains the products of the matrices with the prescribed displacements: with prescribed values that are not zero a loop is left with out-of-balance forces as large as the loads (C113_prescribed_false). What holds (C113_analysis_partial): prescribed values exact, square of the norm of R below 1e-10 times the loads, R the out-of-balance forces if the prescribed values are zero; C113_boundary for the flow program, where the increment is passed and the square of the out-of-balance forces is below 1e-10 whatever the boundary values; C113_pass, C113_solves, C113_linear, C113_two_passes for the passes; C113_solid, C113_solid_tangent, C113_solid_newton for the total Lagrange solid."
  },
  {
   "property": "C114",
   "status": "proved",
   "theorems": [
    "Pansfem.C114_first_pass",
    "Pansfem.C114_kernel",
    "Pansfem.C114_solid"
   ],
   "note": "C114_kernel: the element matrix of a parallelepiped vanishes exactly on rigid motions; C114_solid: the linear program succeeds; C114_first_pass: the first pass of the total Lagrange program is the linear analysis. Meshes of general hexahedra are outside; the arithmetic is exact."
  },
  {
   "property": "C115",
   "status": "partial",
   "theorems": [
    "Pansfem.C115_matrices",
    "Pansfem.C115_pairs_partial",
    "Pansfem.C115_false"
   ],
   "note": "C115_matrices: the assembled matrices are the stiffness and mass forms, positive definite where claimed, and the shifted matrix is positive definite for negative shifts. C115_pairs_partial: number of results, supports, and the residual of each pair as an explicit sum of the solver errors (each below 1e-10 relative), the small residual and the last remainder. C115_false: one element with one free dof, where one step is complete; the program returns a value that is off by more than 0.9 times the shift for every negative shift, because the first vector is divided by its Euclidean norm and not by its mass norm."
  },
  {
   "property": "C116",
   "status": "proved",
   "theorems": [
    "Pansfem.C116_finite",
    "Pansfem.C116_converges",
    "Pansfem.C116_scalingCG",
    "Pansfem.C116_diagonal",
    "Pansfem.C116_unsolvable"
   ],
   "note": "Over the reals. C12 and C14 are the positive definite case."
  },
  {
   "property": "C117",
   "status": "partial",
   "theorems": [
    "Pansfem.C117_system_partial",
    "Pansfem.C117_kernel_partial",
    "Pansfem.C117_solvable_partial",
    "Pansfem.C117_singular",
    "Pansfem.C117_false"
   ],
   "note": "Positive definiteness fails for every cell (C117_singular, C117_false): WeakSpring gives both dofs of a node the same local number, so the springs only see ux + uy and the translation (1,-1) stays in the kernel. Proved: the forms and loads, that vectors are exactly the periodic fields, the kernel, that the three systems are solvable nevertheless and that their strains are unique. Missing: uniqueness of the displacements, which is false."
  },
  {
   "property": "C118",
   "status": "partial",
   "theorems": [
    "Pansfem.C118_energy_partial",
    "Pansfem.C118_balance_partial",
    "Pansfem.C118_bounds_partial",
    "Pansfem.C118_check_partial",
    "Pansfem.C118_returns_partial",
    "Pansfem.C118_breaks",
    "Pansfem.C118_false"
   ],
   "note": "Returning fails (C118_false, C118_breaks): when a macroscopic strain loads no periodic field, as in a cell of one material without hole, ScalingCG divides zero by zero. Proved with at most 50000 nodes: it returns with convergence reported exactly when each strain loads some periodic field; and for every returned result the balance, energy, symmetry and bounds. Missing: cells without load, where the claim is false."
  },
  {
   "property": "C119",
   "status": "proved",
   "theorems": [
    "Pansfem.C119_rotation",
    "Pansfem.C119_tensor",
    "Pansfem.C119_sensitivity",
    "Pansfem.C119_displacements",
    "Pansfem.C119_weight",
    "Pansfem.C119_pack"
   ],
   "note": "Over the reals, for displacements in exact equilibrium (the program solves up to 1e-10). The tensors of the unit cells are inputs, see C118. The update is that of the MMA optimiser, see C48."
  },
  {
   "property": "C120",
   "status": "proved",
   "theorems": [
    "Pansfem.C120_problem",
    "Pansfem.C120_analysis",
    "Pansfem.C120_program"
   ],
   "note": "Over the reals. That the tensors of a design are positive definite is a hypothesis, see C121."
  },
  {
   "property": "C121",
   "status": "partial",
   "theorems": [
    "Pansfem.C121_weights_partial",
    "Pansfem.C121_two_partial",
    "Pansfem.C121_spread_partial",
    "Pansfem.C121_false"
   ],
   "note": "False (C121_false): the Lagrange weight of the first size is negative between the second and the third, and one cell tensor a thousand times as stiff as the others gives a tensor with negative energy for every strain. Proved: positive definite where no weight is negative, with two sizes per direction everywhere between them, and for tables of small spread in terms of the sum of the absolute weights. Not known: whether the tables that the homogenisation of the program computes have such a spread."
  },
  {
   "property": "C122",
   "status": "proved",
   "theorems": [
    "Pansfem.C122_analysis",
    "Pansfem.C122_displacements",
    "Pansfem.C122_problem",
    "Pansfem.C122_program"
   ],
   "note": "Over the reals. C122_analysis holds on any held mesh of quadrilaterals with positive Jacobians at the four points."
  },
  {
   "property": "C123",
   "status": "proved",
   "theorems": [
    "Pansfem.C123_neighbours",
    "Pansfem.C123_problem",
    "Pansfem.C123_evaluation",
    "Pansfem.C123_callback",
    "Pansfem.C123_mma",
    "Pansfem.C123_conlin",
    "Pansfem.C123_oc",
    "Pansfem.C123_program"
   ],
   "note": "Over the reals. The inner loops of the optimisers get a bound on their passes; an optimiser that does not return within it ends the model of the program with `stuck`. Whether it returns is the subject of C47 and C83."
  },
  {
   "property": "C124",
   "status": "proved",
   "theorems": [
    "Pansfem.C124_problem",
    "Pansfem.C124_evaluation",
    "Pansfem.C124_update",
    "Pansfem.C124_first",
    "Pansfem.C124_run",
    "Pansfem.C124_program"
   ],
   "note": "Over the reals. The condition nvol >= 4 keeps the criterion from reading objective[t-5] with a negative index; the program has nvol = 100. For nu = 1/2 the program divides by zero (excluded by hypothesis)."
  },
  {
   "property": "C125",
   "status": "proved",
   "theorems": [
    "Pansfem.C125_unique",
    "Pansfem.C125_step",
    "Pansfem.C125_run",
    "Pansfem.C125_stalled",
    "Pansfem.C125_first_step",
    "Pansfem.C125_rest",
    "Pansfem.C125_problem",
    "Pansfem.C125_lid",
    "Pansfem.C125_cavity"
   ],
   "note": "Over the reals. The dichotomy between a computed step and a divergence free auxiliary velocity is proved for every step; that it does not occur in later steps of the cavity is not claimed."
  },
  {
   "property": "C126",
   "status": "proved",
   "theorems": [
    "Pansfem.C126_bar",
    "Pansfem.C126_stiff",
    "Pansfem.C126_problem",
    "Pansfem.C126_program",
    "Pansfem.C126_evaluation",
    "Pansfem.C126_callback",
    "Pansfem.C126_run",
    "Pansfem.C126_stress",
    "Pansfem.C126_sample",
    "Pansfem.C126_sizes",
    "Pansfem.C126_stresses"
   ],
   "note": "Over the reals. The bisection of OC gets a bound on its passes, as in C123. Whether OC returns is the subject of C47."
  },
  {
   "property": "C127",
   "status": "proved",
   "theorems": [
    "Pansfem.C127_run",
    "Pansfem.C127_stabilised",
    "Pansfem.C127_stokes",
    "Pansfem.C127_programs",
    "Pansfem.C127_cavity",
    "Pansfem.C127_divfree",
    "Pansfem.C127_energy",
    "Pansfem.C127_decay",
    "Pansfem.C127_answers",
    "Pansfem.C127_rest",
    "Pansfem.C127_sample"
   ],
   "note": "Over the reals. Files read and written are left out: nodes, elements and given values are arguments. sample_stokes_dynamic.cpp calls functions under names that no longer exist in src; the model takes their present names."
  },
  {
   "property": "C128",
   "status": "partial",
   "theorems": [
    "Pansfem.C128_unused",
    "Pansfem.C128_determined_false",
    "Pansfem.C128_cavity",
    "Pansfem.C128_cavity_false",
    "Pansfem.C128_determined_partial",
    "Pansfem.C128_stokes_partial"
   ],
   "note": "Violated: pressures at nodes of no pressure element (all midside nodes) are free dofs that no equation mentions, so the system is singular (C128_unused, C128_determined_false), and in the driven cavity no pressure is given, so a constant can be added on every grid (C128_cavity, C128_cavity_false). Proved instead: velocities at the nodes of the elements are determined and pressures up to fields that do no work, for the Galerkin loop as long as convection does no negative work (so in the first step) and for the Stokes program always. Missing: the SUPG loop, and the Galerkin loop with convection that does negative work."
  },
  {
   "property": "C129",
   "status": "partial",
   "theorems": [
    "Pansfem.C129_divergence",
    "Pansfem.C129_alternates",
    "Pansfem.C129_divfree_false",
    "Pansfem.C129_divfree_partial"
   ],
   "note": "Violated: continuity is imposed on the mean of old and new velocities, so with theta = 1/2 a divergence of the start only changes sign (C129_alternates) and on one triangle no step at all gives divergence free velocities (C129_divfree_false). Proved: the exact law of the divergence for any theta (C129_divergence), and that velocities stay divergence free if they are at the start (C129_divfree_partial)."
  },
  {
   "property": "C130",
   "status": "proved",
   "theorems": [
    "Pansfem.C130_equations",
    "Pansfem.C130_still",
    "Pansfem.C130_run",
    "Pansfem.C130_answers",
    "Pansfem.C130_energy",
    "Pansfem.C130_dissipative",
    "Pansfem.C130_positive",
    "Pansfem.C130_unique",
    "Pansfem.C130_constant",
    "Pansfem.C130_error",
    "Pansfem.C130_sample"
   ],
   "note": "C130_equations, C130_run and C130_sample (the constants and BiCGSTAB of the program) for every run; C130_still: without velocity the program divides zero by zero. C130_energy is the energy identity, C130_dissipative and C130_positive follow for values given where the flow enters; C130_unique, C130_constant and C130_error are the consequences. The shock-capturing matrix is computed and dropped by the program. That BiCGSTAB reaches its tolerance is not claimed."
  },
  {
   "property": "C131",
   "status": "proved",
   "theorems": [
    "Pansfem.C131_equations",
    "Pansfem.C131_defined",
    "Pansfem.C131_still",
    "Pansfem.C131_run",
    "Pansfem.C131_answers",
    "Pansfem.C131_constant",
    "Pansfem.C131_rotation"
   ],
   "note": "C131_rotation is the program with its constants and BiCGSTAB; C131_equations, C131_defined, C131_still, C131_run and C131_constant are the general statements, C131_answers shows that runs exist. The files written are left out. That BiCGSTAB reaches its tolerance is not claimed."
  },
  {
   "property": "C132",
   "status": "partial",
   "theorems": [
    "Pansfem.C132_partial",
    "Pansfem.C132_rank",
    "Pansfem.C132_false"
   ],
   "note": "False as stated (C132_false): the program passes k = 0 and uses one quadrature point, so the matrix of every element has rank one, and on a mesh with more free nodes than elements every step has several solutions (C132_rank). C132_partial proves existence and uniqueness with positive diffusion if (tau - theta dt)^2 |w|^2 < 4 theta k dt in every element. Missing: k = 0 on meshes with enough elements."
  },
  {
   "property": "C133",
   "status": "proved",
   "theorems": [
    "Pansfem.C133_equations",
    "Pansfem.C133_upright",
    "Pansfem.C133_run",
    "Pansfem.C133_stable",
    "Pansfem.C133_unique",
    "Pansfem.C133_solves",
    "Pansfem.C133_cantilever",
    "Pansfem.C133_deviation",
    "Pansfem.C133_cantilever_run"
   ],
   "note": "C133_equations, C133_run, C133_stable, C133_unique and C133_solves are the general statements, C133_cantilever the solution in closed form, C133_deviation its distance to beam theory, C133_upright the division by zero. Exact arithmetic; reading the CSV files is C57, the files written are left out."
  },
  {
   "property": "C134",
   "status": "partial",
   "theorems": [
    "Pansfem.C134_equations",
    "Pansfem.C134_run",
    "Pansfem.C134_energy",
    "Pansfem.C134_solvable",
    "Pansfem.C134_solves",
    "Pansfem.C134_problem",
    "Pansfem.C134_determined_partial",
    "Pansfem.C134_grid_solvable",
    "Pansfem.C134_drilling",
    "Pansfem.C134_grid",
    "Pansfem.C134_strip",
    "Pansfem.C134_motions",
    "Pansfem.C134_corner",
    "Pansfem.C134_program",
    "Pansfem.C134_determined_false"
   ],
   "note": "C134_equations, C134_run, C134_energy, C134_solvable and C134_solves are proved for all flat meshes. The last sentence is false: rotations about the normal are never determined (C134_drilling), and on a strip of one row, which is the mesh the program ships with, the displacements are not determined either (C134_determined_false; C134_motions gives the motions, C134_corner a load without equilibrium). C134_determined_partial proves it for grids with at least two rows except for the rotations about the normal; C134_grid and C134_strip prove that the program still converges there, C134_program for the shipped literals. Exact arithmetic; abs is the one of double."
  },
  {
   "property": "C135",
   "status": "partial",
   "theorems": [
    "Pansfem.C135_exists",
    "Pansfem.C135_divfree",
    "Pansfem.C135_determined_partial",
    "Pansfem.C135_determined_false",
    "Pansfem.C135_program",
    "Pansfem.C135_sample",
    "Pansfem.C135_equations",
    "Pansfem.C135_run",
    "Pansfem.C135_answers",
    "Pansfem.C135_weak"
   ],
   "note": "C135_equations, C135_run, C135_answers and C135_weak are proved for all meshes that are not degenerate, C135_program, C135_exists and C135_divfree for all grids, C135_sample for the literals. The last sentence is false on every grid: a constant can be added to the pressure and the pressure at a middle node can be anything (C135_determined_false). C135_determined_partial proves for grids with at least three elements in each direction that velocities at all nodes and pressures at the corners up to one constant are determined, and that nothing else is. The system is symmetric but indefinite, so nothing is claimed about convergence of conjugate gradients. Exact arithmetic; abs is the one of double."
  },
  {
   "property": "C136",
   "status": "proved",
   "theorems": [
    "Pansfem.C136_kernels_defined",
    "Pansfem.C136_kernels",
    "Pansfem.C136_cg",
    "Pansfem.C136_scalingCG",
    "Pansfem.C136_ilu0CG",
    "Pansfem.C136_sorCG",
    "Pansfem.C136_bicgstab",
    "Pansfem.C136_ilu0BiCGSTAB",
    "Pansfem.C136_scalingBiCGSTAB",
    "Pansfem.C136_bicgstab2",
    "Pansfem.C136_no_iteration",
    "Pansfem.C136_solves"
   ],
   "note": "C136_kernels_defined, C136_kernels, one theorem per solver, C136_no_iteration for a bound of zero iterations and C136_solves. This removes the simplification of Model/Krylov that vectors have a fixed length. Exact arithmetic; ILU0 itself, which takes no vector, is in C16."
  },
  {
   "property": "C137",
   "status": "proved",
   "theorems": [
    "Pansfem.C137_planeStrain",
    "Pansfem.C137_planeStress",
    "Pansfem.C137_planeStiffness",
    "Pansfem.C137_planeStrainSRI",
    "Pansfem.C137_planeStrainBbar",
    "Pansfem.C137_planeStrainWilsonTaylor",
    "Pansfem.C137_planeMass",
    "Pansfem.C137_planeBodyForce",
    "Pansfem.C137_heatTransfer",
    "Pansfem.C137_heatCapacity",
    "Pansfem.C137_solid",
    "Pansfem.C137_planeSurfaceForce",
    "Pansfem.C137_heatSurfaceFlux",
    "Pansfem.C137_symmetric",
    "Pansfem.C137_rigid",
    "Pansfem.C137_no_points"
   ],
   "note": "One theorem per routine, C137_symmetric and C137_rigid for the stored matrices, C137_no_points for the excluded rules. This removes for these routines the simplifications of Model/Element (Mathlib matrices, pairs as indices, collected factors). Exact arithmetic; the tables of shape functions and rules are handed over as objects of the class."
  },
  {
   "property": "C138",
   "status": "proved",
   "theorems": [
    "Pansfem.C138_evaluation",
    "Pansfem.C138_run",
    "Pansfem.C138_sound",
    "Pansfem.C138_solid",
    "Pansfem.C138_constant",
    "Pansfem.C138_program"
   ],
   "note": "C138_evaluation, C138_run (any tables), C138_sound (positive definite tensors in the box), C138_solid and C138_constant (when that holds), C138_program (the literals of the program). The tables of tensors are an input: the cell analyses that make them are C116 to C118. Positive definite tensors of the unit cells alone do not suffice with six sizes, see C121. MMA may fail to return (C83), which is an ending of its own."
  },
  {
   "property": "C139",
   "status": "proved",
   "theorems": [
    "Pansfem.C139_mma",
    "Pansfem.C139_conlin",
    "Pansfem.C139_made",
    "Pansfem.C139_short",
    "Pansfem.C139_short_weights",
    "Pansfem.C139_conlin_short",
    "Pansfem.C139_safe",
    "Pansfem.C139_calls",
    "Pansfem.C139_conlin_safe"
   ],
   "note": "C139_mma and C139_conlin (refinement of the model of fixed size, from which C48, C49, C51 and C83 to C87 carry over), C139_made (constructors and SetParameters), C139_safe, C139_conlin_safe, C139_calls, C139_short, C139_short_weights, C139_conlin_short. This removes the simplification of Model/MMA that vectors have a fixed length and that divisors are tested in groups. Exact arithmetic; a call may fail to return, which is the outcome `running`."
  },
  {
   "property": "C140",
   "status": "proved",
   "theorems": [
    "Pansfem.C140_consistentMass",
    "Pansfem.C140_lumpedMass",
    "Pansfem.C140_diffusion",
    "Pansfem.C140_advection",
    "Pansfem.C140_mass",
    "Pansfem.C140_reaction",
    "Pansfem.C140_planeBbar",
    "Pansfem.C140_planeWilsonTaylor",
    "Pansfem.C140_wrong_size",
    "Pansfem.C140_homogenizeBodyForce",
    "Pansfem.C140_homogenizeValues",
    "Pansfem.C140_supg",
    "Pansfem.C140_shock",
    "Pansfem.C140_massSUPG",
    "Pansfem.C140_still",
    "Pansfem.C140_symmetric"
   ],
   "note": "One theorem per routine (C140_consistentMass to C140_massSUPG), C140_wrong_size, C140_symmetric, C140_still. This removes for these routines the simplifications of Model/Element and Model/Fluid (Mathlib matrices, collected factors). Exact arithmetic; the quotient by k = 0 in alpha stays the value the comparison with 3 treats as large, see Model/Fluid."
  },
  {
   "property": "C141",
   "status": "proved",
   "theorems": [
    "Pansfem.C141_stokesStiffness_first",
    "Pansfem.C141_stokesStiffness",
    "Pansfem.C141_stokesStiffness_long",
    "Pansfem.C141_stokesMass_first",
    "Pansfem.C141_stokesMass",
    "Pansfem.C141_stokesMass_long",
    "Pansfem.C141_consistentMass_first",
    "Pansfem.C141_consistentMass",
    "Pansfem.C141_consistentMass_long",
    "Pansfem.C141_brinkman_first",
    "Pansfem.C141_brinkman",
    "Pansfem.C141_brinkman_long",
    "Pansfem.C141_continuity_first",
    "Pansfem.C141_continuity",
    "Pansfem.C141_continuity_long",
    "Pansfem.C141_stiffness_point",
    "Pansfem.C141_nsStiffness",
    "Pansfem.C141_adjoint_point",
    "Pansfem.C141_tangent_point",
    "Pansfem.C141_force_point",
    "Pansfem.C141_nsAdjoint",
    "Pansfem.C141_nsTangent",
    "Pansfem.C141_bodyForce_first",
    "Pansfem.C141_bodyForce",
    "Pansfem.C141_bodyForce_long",
    "Pansfem.C141_surface_point",
    "Pansfem.C141_surfaceForce_first",
    "Pansfem.C141_surfaceForce",
    "Pansfem.C141_supg",
    "Pansfem.C141_supgStiffness",
    "Pansfem.C141_supgMass",
    "Pansfem.C141_supgContinuity",
    "Pansfem.C141_decoupledMass",
    "Pansfem.C141_decoupledLumped",
    "Pansfem.C141_auxiliaryVelocity",
    "Pansfem.C141_nextstepVelocity",
    "Pansfem.C141_pressurePoisson",
    "Pansfem.C141_symmetric",
    "Pansfem.C141_short_accepted"
   ],
   "note": "One theorem per routine (C141_stokesStiffness to C141_pressurePoisson); _first and _long give the shorter and the longer lists; C141_symmetric, C141_short_accepted. The lumped mass and the pressure Poisson routine need at least one shape function, the surface force is over the reals because of the square root. This removes for these routines the simplifications of Model/Fluid (Mathlib matrices, collected factors). Exact arithmetic."
  },
  {
   "property": "C142",
   "status": "proved",
   "theorems": [
    "Pansfem.C142_planeTL",
    "Pansfem.C142_solidTL",
    "Pansfem.C142_planeUL",
    "Pansfem.C142_solidUL",
    "Pansfem.C142_pressureUL",
    "Pansfem.C142_planeTL_symmetric",
    "Pansfem.C142_solidTL_symmetric",
    "Pansfem.C142_pressureUL_symmetric",
    "Pansfem.C142_calls",
    "Pansfem.C142_solidTL_calls",
    "Pansfem.C142_solidUL_calls"
   ],
   "note": "One theorem per routine (C142_planeTL, solidTL, planeUL, solidUL, pressureUL), _symmetric for the three symmetric tangents, C142_solidTL_calls and C142_solidUL_calls for the programs. The total Lagrange routines need 2 to be invertible (they divide by 2.0), the updated Lagrange ones are over the reals because of the logarithm. The statements that make the stress blocks and BNL are read before the first accumulation, which they do not use. Exact arithmetic."
  },
  {
   "property": "C143",
   "status": "proved",
   "theorems": [
    "Pansfem.C143_beam",
    "Pansfem.C143_shell",
    "Pansfem.C143_shell2",
    "Pansfem.C143_truss",
    "Pansfem.C143_truss_core",
    "Pansfem.C143_shell_coordinates",
    "Pansfem.C143_beam_directions",
    "Pansfem.C143_beam_symmetric",
    "Pansfem.C143_shell_symmetric",
    "Pansfem.C143_shell2_symmetric",
    "Pansfem.C143_shell_calls",
    "Pansfem.C143_beam_calls"
   ],
   "note": "C143_truss, C143_truss_core, C143_beam, C143_shell, C143_shell2 for the routines; _symmetric for the stored matrices; C143_shell_coordinates and C143_beam_directions for the assertions of VectorProduct and Vstack; _calls for the programs. The statements that compute the rows, the constitutive matrix and the Jacobian are read in source order; only the point at which the zero accumulation matrix is made differs. Over the reals because of the square roots; exact arithmetic."
  },
  {
   "property": "C144",
   "status": "proved",
   "theorems": [
    "Pansfem.C144_object",
    "Pansfem.C144_returns",
    "Pansfem.C144_sign",
    "Pansfem.C144_defined",
    "Pansfem.C144_zero",
    "Pansfem.C144_empty",
    "Pansfem.C144_void",
    "Pansfem.C144_sharpen",
    "Pansfem.C144_grayness",
    "Pansfem.C144_step",
    "Pansfem.C144_identity"
   ],
   "note": "C144_object, C144_returns, C144_defined, C144_zero, C144_empty for the object; C144_sign, C144_void, C144_sharpen, C144_grayness, C144_step, C144_identity for the parameter. Real arithmetic, tanh is the real function; with doubles tanh reaches 1 for large arguments and the strict statements of C45 fail there, those here are not strict."
  },
  {
   "property": "C145",
   "status": "proved",
   "theorems": [
    "Pansfem.C145_conditions",
    "Pansfem.C145_trial",
    "Pansfem.C145_update",
    "Pansfem.C145_descent",
    "Pansfem.C145_matches",
    "Pansfem.C145_stationary",
    "Pansfem.C145_density",
    "Pansfem.C145_truss",
    "Pansfem.C145_second"
   ],
   "note": "C145_conditions, C145_stationary for every exponent; C145_trial, C145_update, C145_descent for the exponent 1/2 of the samples; C145_matches for the approximation; C145_density and C145_truss for all passes of the runs of the two programs; C145_second for the existence of a second pass, with a bar that is pulled as example. Exact arithmetic."
  },
  {
   "property": "C146",
   "status": "proved",
   "theorems": [
    "Pansfem.C146_density_pass",
    "Pansfem.C146_density_stuck",
    "Pansfem.C146_density_second_iff",
    "Pansfem.C146_density_ends",
    "Pansfem.C146_density_small",
    "Pansfem.C146_never",
    "Pansfem.C146_returns_iff",
    "Pansfem.C146_pass",
    "Pansfem.C146_stuck",
    "Pansfem.C146_ends",
    "Pansfem.C146_second_iff",
    "Pansfem.C146_small"
   ],
   "note": "C146_never, C146_returns_iff for the object; C146_pass, C146_stuck, C146_second_iff, C146_ends, C146_small for the truss, with a pulled bar and several limits as examples; C146_density_pass, C146_density_stuck, C146_density_second_iff, C146_density_ends, C146_density_small for densities, with one element and several limits as examples. Exact arithmetic: in floating point the upper end of the interval underflows after about 1100 halvings and NaN ends the loop."
  },
  {
   "property": "C147",
   "status": "proved",
   "theorems": [
    "Pansfem.C147_above",
    "Pansfem.C147_between",
    "Pansfem.C147_density",
    "Pansfem.C147_density_pass",
    "Pansfem.C147_bracket",
    "Pansfem.C147_weight",
    "Pansfem.C147_ends"
   ],
   "note": "C147_bracket for the object; C147_weight, C147_above, C147_between, C147_ends for the truss program, with the pulled bar and a limit of one half as example: its program ends; C147_density, C147_density_pass for the density program, with one element as example. Exact arithmetic."
  },
  {
   "property": "C148",
   "status": "proved",
   "theorems": [
    "Pansfem.C148_loop",
    "Pansfem.C148_beam",
    "Pansfem.C148_balls",
    "Pansfem.C148_two_bars"
   ],
   "note": "C148_loop for any problem; C148_beam, C148_balls, C148_two_bars for the programs, with the derivatives of all their functions. Whether an update returns is left open, as in C83. Exact arithmetic."
  }
 ]
}
