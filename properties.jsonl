{"id": "C01", "title": "Dense vector/matrix arithmetic is the mathematical arithmetic, and fails exactly on shape mismatch", "statement": "For Vector and Matrix, element access, +, -, unary -, scalar * and /, Matrix*Matrix, Matrix*Vector, Vector*Vector, Transpose, Vstack, Hstack, Block, Segment, Identity and Diagonal succeed exactly when the documented shape/bounds assertion holds, and then the result has the stated shape and every entry equals the textbook formula on the operands' entries.", "quantifier": "all matrices and vectors of all shapes (including empty ones) over any field", "why_tests_cant": "infinitely many shapes and values; row-major index arithmetic bugs (row vs column stride) are invisible on square or symmetric samples", "anchors": ["src/LinearAlgebra/Models/Matrix.h: operator(), operator+, operator-, operator*, Transpose, Vstack, Hstack, Block, Identity, Diagonal", "src/LinearAlgebra/Models/Vector.h: operator(), operator+, operator*, Segment, Vstack, Transpose"]}
{"id": "C02", "title": "Determinant is the determinant", "statement": "For every square non-empty matrix, Determinant() returns the mathematical determinant (signed sum over permutations); for non-square or empty matrices the assertion fails.", "quantifier": "all matrices of all sizes n over any commutative ring/field", "why_tests_cant": "closed forms are used for n = 1,2,3 and a recursive expansion otherwise; no finite set of sizes settles the recursion", "anchors": ["src/LinearAlgebra/Models/Matrix.h: Matrix::Determinant, Matrix::Cofactor"]}
{"id": "C03", "title": "Inverse inverts", "statement": "Whenever a non-empty square matrix A has Determinant() != 0, A.Inverse() is defined and A*A.Inverse() = A.Inverse()*A = Identity(n).", "quantifier": "all non-singular matrices of every size over any field", "why_tests_cant": "sign/transposition mistakes in the adjugate cancel on symmetric or tiny samples; the property must hold for every n", "anchors": ["src/LinearAlgebra/Models/Matrix.h: Matrix::Inverse, Matrix::Cofactor, Matrix::Determinant, Identity"]}
{"id": "C04", "title": "Storage of dense objects is released exactly once", "statement": "In any history of constructions, copies, assignments and destructions of Vector/Matrix objects every heap block is released exactly once and never used after release, and nothing is released that was not allocated.", "quantifier": "all finite histories of operations on any number of objects", "why_tests_cant": "leaks and double frees depend on the order of operations; a default-constructed object that dies unassigned releases an indeterminate pointer", "anchors": ["src/LinearAlgebra/Models/Vector.h: Vector(), ~Vector, operator=", "src/LinearAlgebra/Models/Matrix.h: Matrix(), ~Matrix, operator="]}
{"id": "C05", "title": "LILCSR set/get is a finite map with default zero", "statement": "After set(i,j,v), get(i,j) returns v and get at every other position is unchanged; a position never written reads T(); set reports true exactly when the position had been stored before; no column is ever stored twice in a row.", "quantifier": "all matrices, positions and arbitrary histories of set operations", "why_tests_cant": "depends on the whole history of insertions and overwrites", "anchors": ["src/LinearAlgebra/Models/LILCSR.h: LILCSR::set, LILCSR::get"]}
{"id": "C06", "title": "CSR set/get is a finite map with default zero and keeps rows sorted", "statement": "Starting from an empty CSR or from a conversion, any sequence of set operations leaves the structure well formed (row pointers non-decreasing and consistent with the arrays, columns strictly increasing in each row), get returns the last value set at a position and T() elsewhere, and set reports whether the position was already stored.", "quantifier": "all matrices, positions and arbitrary histories of set operations", "why_tests_cant": "binary search silently misbehaves once order is broken; correctness depends on an invariant over the whole history", "anchors": ["src/LinearAlgebra/Models/CSR.h: CSR::set, CSR::get, CSR(int,int)"]}
{"id": "C07", "title": "LILCSR and CSR conversions preserve the matrix", "statement": "Converting LILCSR to CSR (and back) preserves ROWS, COLS and every entry as seen by get, and the conversion leaves the source matrix's entries unchanged although it reorders its storage.", "quantifier": "all matrices with any fill pattern and insertion order", "why_tests_cant": "the insertion order of the source is arbitrary and the constructor mutates its argument", "anchors": ["src/LinearAlgebra/Models/CSR.h: CSR(LILCSR&)", "src/LinearAlgebra/Models/LILCSR.h: LILCSR(CSR)"]}
{"id": "C08", "title": "Sparse matrix-vector product is the mathematical product under every thread schedule", "statement": "LILCSR*vec and CSR*vec return the vector whose i-th entry is the sum over j of get(i,j)*vec[j]; for CSR the result is independent of how the parallel loop distributes and interleaves the row updates.", "quantifier": "all sparse matrices, all vectors of matching length and all interleavings of the per-row updates", "why_tests_cant": "tests observe a handful of schedules; a data race would show only under particular interleavings", "anchors": ["src/LinearAlgebra/Models/CSR.h: CSR::operator*", "src/LinearAlgebra/Models/LILCSR.h: operator*(LILCSR, vector)"]}
{"id": "C09", "title": "Sparse addition, subtraction and scaling are entrywise", "statement": "For matrices of equal shape, (A+B).get(i,j) = A.get(i,j)+B.get(i,j), likewise for -, a*A, A*a, A/a; shapes that differ fail the assertion.", "quantifier": "all pairs of sparse matrices (LILCSR and CSR) and all positions", "why_tests_cant": "fill patterns that partly overlap are unbounded in number", "anchors": ["src/LinearAlgebra/Models/LILCSR.h: operator+, operator-, operator*, operator/", "src/LinearAlgebra/Models/CSR.h: operator+, operator-, operator*, operator/"]}
{"id": "C10", "title": "LU factorisation and solve return the exact solution", "statement": "For every non-singular square matrix A and right-hand side b, SolveLU applied to the result of LU returns x with A x = b; the stored factors satisfy PA = LU with multipliers of magnitude at most one.", "quantifier": "all sizes, all non-singular matrices over an ordered field, all right-hand sides", "why_tests_cant": "row exchanges interact with in-place storage; only some matrices trigger each pivoting pattern", "anchors": ["src/LinearAlgebra/Solvers/LU.h: LU, SolveLU"]}
{"id": "C11", "title": "CG keeps its residual consistent with the iterate", "statement": "In exact arithmetic, at every iteration of CG the recursively updated residual equals b - A x, so if CG returns through its convergence test then ||b - A x|| < eps*||b||.", "quantifier": "all matrices A, right-hand sides b, iteration limits and iteration counts", "why_tests_cant": "iteration counts are unbounded and the residual is updated by recurrence rather than recomputed", "anchors": ["src/LinearAlgebra/Solvers/CG.h: CG"]}
{"id": "C12", "title": "CG search directions are conjugate and the method ends in at most n steps", "statement": "For symmetric positive definite A in exact arithmetic, CG's residuals are mutually orthogonal, its directions are A-conjugate, no division by zero occurs before the residual vanishes, and the residual vanishes after at most n iterations.", "quantifier": "all n, all symmetric positive definite matrices and right-hand sides", "why_tests_cant": "must hold for all matrices and all steps", "anchors": ["src/LinearAlgebra/Solvers/CG.h: CG"]}
{"id": "C13", "title": "BiCGSTAB and BiCGSTAB2 keep their residuals consistent with the iterate", "statement": "At every iteration of BiCGSTAB, BiCGSTAB2 and their preconditioned variants the recursively updated residual equals b - A x whenever the step is defined; a return through the convergence test therefore certifies ||b - A x|| < eps*||b||.", "quantifier": "all matrices, right-hand sides, preconditioners and iteration counts", "why_tests_cant": "iteration counts and matrices are unbounded", "anchors": ["src/LinearAlgebra/Solvers/CG.h: BiCGSTAB, BiCGSTAB2, ILU0BiCGSTAB, ScalingBiCGSTAB"]}
{"id": "C14", "title": "Preconditioned CG variants keep their residuals consistent", "statement": "ScalingCG, ILU0CG and SORCG preserve residual = b - A x at every iteration whatever the preconditioner returns, so convergence returns certify the true residual.", "quantifier": "all matrices, right-hand sides, preconditioner outputs and iteration counts", "why_tests_cant": "the preconditioner can be any function; iterations are unbounded", "anchors": ["src/LinearAlgebra/Solvers/CG.h: ScalingCG, ILU0CG, SORCG"]}
{"id": "C15", "title": "Triangular solves with an ILU(0) factor are exact", "statement": "PreILU0(M, b) returns x with L U x = b, where L is the unit lower and U the upper triangular part of M, provided the diagonal of M has no zero.", "quantifier": "all sparse matrices with non-zero diagonals and all right-hand sides", "why_tests_cant": "forward/backward sweeps over arbitrary fill patterns", "anchors": ["src/LinearAlgebra/Solvers/CG.h: PreILU0"]}
{"id": "C16", "title": "ILU(0) reproduces the matrix on its own pattern", "statement": "ILU0(A) keeps the fill pattern of A and, when no pivot vanishes, the product of its unit lower and upper factors agrees with A at every stored position of A.", "quantifier": "all sparse matrices whose pivots do not vanish", "why_tests_cant": "arbitrary fill patterns and sizes", "anchors": ["src/LinearAlgebra/Solvers/CG.h: ILU0"]}
{"id": "C17", "title": "SOR stops only at (approximate) solutions and exact solutions are fixed points", "statement": "One SOR sweep maps x to itself if and only if A x = b (non-zero diagonal, relaxation factor not 0).", "quantifier": "all matrices with non-zero diagonal, all right-hand sides, all relaxation factors", "why_tests_cant": "arbitrary matrices and iterates", "anchors": ["src/LinearAlgebra/Solvers/CG.h: SOR"]}
{"id": "C18", "title": "Lanczos vectors satisfy the three-term recurrence", "statement": "After k steps of Lanczos on a matrix A, A q_j = beta_{j-1} q_{j-1} + alpha_j q_j + beta_j q_{j+1} for every j<k, and for symmetric A the vectors are orthonormal as long as no beta vanishes.", "quantifier": "all symmetric matrices, start vectors and step counts", "why_tests_cant": "unbounded number of steps", "anchors": ["src/LinearAlgebra/Solvers/Lanczos.h: Lanczos"]}
{"id": "C19", "title": "Tridiagonal inverse iteration solves its linear systems", "statement": "The elimination sweep used by InversePowerMethod returns y with (T - lambda I) y = previous iterate whenever no pivot vanishes.", "quantifier": "all tridiagonal matrices of all sizes, shifts and right-hand sides", "why_tests_cant": "unbounded sizes", "anchors": ["src/LinearAlgebra/Solvers/Lanczos.h: InversePowerMethod"]}
{"id": "C20", "title": "Renumbering is an order-preserving bijection onto the free degrees of freedom", "statement": "After Renumbering the free degrees of freedom carry the numbers 0..KDEGREE-1 exactly once each in traversal order, fixed ones stay -1, and the return value is the number of free ones; calling it again changes nothing.", "quantifier": "all node/dof tables of any shape and any pattern of fixed dofs", "why_tests_cant": "table shapes and patterns are unbounded", "anchors": ["src/FEM/Controller/Assembling.h: Renumbering"]}
{"id": "C21", "title": "SetDirichlet fixes exactly the listed dofs at the listed values", "statement": "After SetDirichlet exactly the listed dofs are marked -1 in addition to those already marked, each carries the last listed value, and no other displacement or mark changes; RemoveBoundaryConditions clears every mark.", "quantifier": "all tables, lists with any repetition and order", "why_tests_cant": "lists may repeat dofs; history dependence", "anchors": ["src/FEM/Controller/BoundaryCondition.h: SetDirichlet, RemoveBoundaryConditions"]}
{"id": "C22", "title": "SetPeriodic ties each slave to its master", "statement": "After SetPeriodic every slave dof carries the same equation number as its master's, and the numbers of all non-slave dofs are 0..KDEGREE-1 exactly once each.", "quantifier": "all node tables and all master/slave lists", "why_tests_cant": "chains and repeated nodes make the outcome order dependent", "anchors": ["src/FEM/Controller/BoundaryCondition.h: SetPeriodic"]}
{"id": "C23", "title": "Assembling adds exactly the element contributions", "statement": "Assembling(K,F,u,Ke,Fe,...) increases K(I,J) by the sum of Ke(a,b) over local dofs a,b numbered I,J and changes F(I) by the sum of Fe(a) minus Ke(a,b)*u_b over local a numbered I and fixed b; nothing else changes, and no entry outside the system is touched.", "quantifier": "all meshes, numberings, element matrices and previously assembled contents", "why_tests_cant": "several local dofs may share a global number (periodic, repeated nodes); unbounded meshes", "anchors": ["src/FEM/Controller/Assembling.h: Assembling (all overloads)"]}
{"id": "C24", "title": "Assembly is independent of element order and preserves symmetry", "statement": "Assembling a list of elements in any order gives the same K (as seen by get) and F; if every Ke is symmetric then K is symmetric.", "quantifier": "all element lists and all their permutations", "why_tests_cant": "factorially many orders", "anchors": ["src/FEM/Controller/Assembling.h: Assembling"]}
{"id": "C25", "title": "Disassembling writes free dofs and keeps prescribed ones", "statement": "Disassembling sets u(i,j) = result[number] for every free dof and leaves every fixed dof at its prescribed value; dofs tied by periodicity receive equal values.", "quantifier": "all tables and results", "why_tests_cant": "unbounded tables", "anchors": ["src/FEM/Controller/Assembling.h: Disassembling"]}
{"id": "C26", "title": "Solving the reduced system solves the full one", "statement": "If SetDirichlet, Renumbering and Assembling build K,F and K x = F, then after Disassembling the full-length residual (sum of element Ke*ue - Fe) vanishes at every free dof, while fixed dofs hold their prescribed values.", "quantifier": "all meshes, element matrices, boundary conditions", "why_tests_cant": "end-to-end statement over unbounded meshes", "anchors": ["src/FEM/Controller/Assembling.h: Assembling, Disassembling, Renumbering", "src/FEM/Controller/BoundaryCondition.h: SetDirichlet", "src/FEM/Equation/General.h: ElementVector"]}
{"id": "C27", "title": "Shape functions form a partition of unity", "statement": "For each element family the shape functions sum to 1 at every parametric point, and the derivatives sum to 0 in every direction.", "quantifier": "all parametric points (the whole space, not only the element) for each of the nine families", "why_tests_cant": "continuum of points", "anchors": ["src/FEM/Controller/ShapeFunction.h: N, dNdr of all classes"]}
{"id": "C28", "title": "Shape functions are 1 at their own node and 0 at the others", "statement": "For each element family N_i(Points[j]) = 1 if i = j and 0 otherwise, with as many points as shape functions.", "quantifier": "all pairs of nodes of each family", "why_tests_cant": "a finite but error-prone table; part of the interpolation contract that every mesh relies on", "anchors": ["src/FEM/Controller/ShapeFunction.h: Points, N"]}
{"id": "C29", "title": "dNdr is the derivative of N", "statement": "For each element family, entry (d,i) of dNdr(r) is the partial derivative of N_i with respect to the d-th parametric coordinate at every point.", "quantifier": "all parametric points", "why_tests_cant": "finite differences check only some points and only approximately", "anchors": ["src/FEM/Controller/ShapeFunction.h: N, dNdr"]}
{"id": "C30", "title": "Linear fields are reproduced exactly", "statement": "For each family and every element placed at arbitrary node positions, interpolating an affine function of the coordinates through the nodes and mapping points with the same shape functions reproduces the affine function at every point, and its gradient computed through dNdX is exact where the Jacobian is invertible.", "quantifier": "all node positions, all affine fields, all points", "why_tests_cant": "continuum of geometries and fields", "anchors": ["src/FEM/Controller/ShapeFunction.h", "src/FEM/Equation/PlaneStrain.h: PlaneStrainStiffness (dNdX)"]}
{"id": "C31", "title": "Gauss and Newton-Cotes rules integrate polynomials exactly up to their degree", "statement": "Each rule integrates every polynomial of its stated degree exactly over its reference domain; in particular its weights sum to the domain's measure and the number of points is N.", "quantifier": "all polynomials (all coefficients) up to the degree of each rule", "why_tests_cant": "continuum of polynomials", "anchors": ["src/FEM/Controller/GaussIntegration.h", "src/FEM/Controller/NewtonCotesIntegration.h"]}
{"id": "C32", "title": "Linear elastic element stiffness is symmetric", "statement": "PlaneStrain (standard, SRI, B-bar), PlaneStress, Solid, Beam, Shell, HeatTransfer, Diffusion, Stokes and Truss element matrices are symmetric.", "quantifier": "all node positions, material constants, shape families and integration rules for which the Jacobian is invertible", "why_tests_cant": "continuum of geometries", "anchors": ["src/FEM/Equation/PlaneStrain.h", "src/FEM/Equation/PlaneStress.h", "src/FEM/Equation/Solid.h", "src/FEM/Equation/HeatTransfer.h", "src/FEM/Equation/Truss.h", "src/FEM/Equation/Stokes.h"]}
{"id": "C33", "title": "Rigid motions cost no energy", "statement": "Plane strain/plane stress/solid stiffness matrices annihilate every translation and infinitesimal rotation of the element, and heat conduction matrices annihilate constants.", "quantifier": "all node positions with invertible Jacobian, all rigid motions", "why_tests_cant": "continuum of geometries and motions", "anchors": ["src/FEM/Equation/PlaneStrain.h: PlaneStrainStiffness", "src/FEM/Equation/PlaneStress.h", "src/FEM/Equation/Solid.h: SolidLinearIsotropicElastic", "src/FEM/Equation/HeatTransfer.h"]}
{"id": "C34", "title": "Element energy is non-negative for admissible materials", "statement": "For E >= 0, -1 < nu < 1/2 (plane strain/solid) or |nu| < 1 (plane stress), positive weights and positive Jacobians, u' Ke u >= 0 for every nodal displacement; mass and conduction matrices are likewise positive semidefinite.", "quantifier": "all admissible materials, geometries and nodal vectors", "why_tests_cant": "continuum", "anchors": ["src/FEM/Equation/PlaneStrain.h", "src/FEM/Equation/PlaneStress.h", "src/FEM/Equation/Solid.h", "src/FEM/Equation/HeatTransfer.h"]}
{"id": "C35", "title": "Selective reduced integration and B-bar reduce to the standard stiffness", "statement": "With identical full and reduced rules the SRI element matrix equals the standard plane strain stiffness; the volumetric and deviatoric constitutive parts always add to the full one; B-bar with the same rule equals the standard stiffness.", "quantifier": "all materials, geometries, rules", "why_tests_cant": "continuum", "anchors": ["src/FEM/Equation/PlaneStrain.h: PlaneStrainStiffness, PlaneStrainStiffnessSRI, PlaneStrainStiffnessBbar"]}
{"id": "C36", "title": "Mass matrices and load vectors carry the right totals", "statement": "The mass matrix applied to a rigid translation gives total force density*t*area in that direction; body-force and surface-force vectors for a constant load sum to load times measure; lumped and consistent reaction-diffusion masses have the same total.", "quantifier": "all geometries, densities, loads", "why_tests_cant": "continuum", "anchors": ["src/FEM/Equation/PlaneStrain.h: PlaneStrainMass, PlaneStrainBodyForce, PlaneStrainSurfaceForce", "src/FEM/Equation/PlaneStress.h", "src/FEM/Equation/HeatTransfer.h: HeatCapacity", "src/FEM/Equation/ReactionDiffusion.h"]}
{"id": "C37", "title": "Geometrically nonlinear elements agree with linear ones at zero displacement", "statement": "At zero displacement the Total and Updated Lagrange tangents equal the linear stiffness and the internal force vanishes; rigid translations of the deformed configuration leave the internal force unchanged.", "quantifier": "all geometries and materials", "why_tests_cant": "continuum", "anchors": ["src/FEM/Equation/PlaneStrain.h: PlaneStrainTotalLagrange, PlaneStrainUpdatedLagrange", "src/FEM/Equation/Solid.h: SolidTotalLagrange, SolidUpdatedLagrange"]}
{"id": "C38", "title": "Total Lagrange tangent is the derivative of the internal force", "statement": "The tangent matrix returned by PlaneStrainTotalLagrange is the Jacobian of the internal force vector it returns, with respect to the nodal displacements.", "quantifier": "all displacements, geometries, materials", "why_tests_cant": "continuum; a missing geometric term only degrades Newton convergence and is not noticed by result checks", "anchors": ["src/FEM/Equation/PlaneStrain.h: PlaneStrainTotalLagrange"]}
{"id": "C39", "title": "Navier-Stokes tangent is the derivative of the residual", "statement": "The matrix returned by NavierStokesTangent is the Jacobian of the (negated) residual vector it returns with respect to velocities and pressures.", "quantifier": "all velocity/pressure fields, geometries, fluids", "why_tests_cant": "continuum; misplaced terms vanish for special flows", "anchors": ["src/FEM/Equation/NavierStokes.h: NavierStokesTangent"]}
{"id": "C40", "title": "Weak springs act on each dof separately", "statement": "WeakSpring adds alpha to the diagonal of each listed dof of each element node and couples nothing.", "quantifier": "all elements and dof lists", "why_tests_cant": "any number of nodes and dofs", "anchors": ["src/FEM/Equation/General.h: WeakSpring", "src/FEM/Controller/Assembling.h: Assembling"]}
{"id": "C41", "title": "Lagrange interpolation interpolates", "statement": "LagrangeInterpolation returns weights that are 1 at the own abscissa and 0 at the others, sum to 1 everywhere, reproduce every polynomial of degree < n, and LagrangeInterpolationDerivative returns their derivatives.", "quantifier": "all lists of distinct abscissae of any length and all points", "why_tests_cant": "unbounded number of abscissae, continuum of points", "anchors": ["src/FEM/Equation/General.h: LagrangeInterpolation, LagrangeInterpolationDerivative"]}
{"id": "C42", "title": "Nodal/elemental averaging preserves constants and bounds", "statement": "InterpolateNodalFromElemental and InterpolateElementalFromNodal with zero initial value return averages: constants are preserved and results lie between the extreme inputs, provided each node belongs to an element.", "quantifier": "all meshes and fields", "why_tests_cant": "unbounded meshes; orphan nodes divide by zero", "anchors": ["src/FEM/Equation/General.h: InterpolateNodalFromElemental, InterpolateElementalFromNodal"]}
{"id": "C43", "title": "Density filter is a weighted average", "statement": "DensityFilter maps design variables to convex combinations: constants are preserved, results stay between min and max, and the map is monotone.", "quantifier": "all neighbour tables with positive weight sums, all variables", "why_tests_cant": "unbounded tables", "anchors": ["src/Optimize/Filter/DensityFilter.h: GetFilteredVariables"]}
{"id": "C44", "title": "Filtered sensitivities follow the chain rule", "statement": "GetFilteredSensitivitis of DensityFilter and HeavisideFilter returns the gradient of f(filter(s)) with respect to s.", "quantifier": "all neighbour tables, weights, variables and sensitivities", "why_tests_cant": "holds for uniform symmetric tables, fails otherwise; only a general statement separates the two", "anchors": ["src/Optimize/Filter/DensityFilter.h: GetFilteredSensitivitis", "src/Optimize/Filter/HeavisideFilter.h: GetFilteredSensitivitis"]}
{"id": "C45", "title": "Heaviside projection maps [0,1] to [0,1] monotonically", "statement": "For beta > 0 HeavisideFilter's projection maps 0, 1/2, 1 to themselves, is monotone and keeps filtered variables within [0,1].", "quantifier": "all beta > 0, neighbour tables and variables in [0,1]", "why_tests_cant": "continuum", "anchors": ["src/Optimize/Filter/HeavisideFilter.h: GetFilteredVariables"]}
{"id": "C46", "title": "OC respects move limits and box bounds", "statement": "After OC::UpdateVariables every variable lies within the move limit of its previous value and within [xmin, xmax].", "quantifier": "all objective/constraint data, all histories of bisection", "why_tests_cant": "bisection length and constraint callback are arbitrary", "anchors": ["src/Optimize/Solver/OC.h: UpdateVariables"]}
{"id": "C47", "title": "OC bisection always ends", "statement": "OC::UpdateVariables terminates for every admissible starting interval and every constraint callback.", "quantifier": "all callbacks and intervals", "why_tests_cant": "non-termination cannot be observed by a finite test", "anchors": ["src/Optimize/Solver/OC.h: UpdateVariables"]}
{"id": "C48", "title": "MMA iterates stay strictly inside the move limits and the box", "statement": "Every inner iteration of MMA::UpdateVariables keeps the primal variables strictly inside their subproblem bounds and all slacks and multipliers strictly positive, so the updated design lies within [xmin, xmax].", "quantifier": "all problem data, all search directions and all numbers of inner iterations", "why_tests_cant": "unbounded iterations and arbitrary Newton directions", "anchors": ["src/Optimize/Solver/MMA.h: UpdateVariables"]}
{"id": "C49", "title": "MMA approximations match the problem at the current design", "statement": "The convex approximations used by MMA have the same value and gradient as the objective and constraints at the current design.", "quantifier": "all data", "why_tests_cant": "continuum", "anchors": ["src/Optimize/Solver/MMA.h: UpdateVariables (p, q, r, b)"]}
{"id": "C50", "title": "MMA/CONLIN dense solver returns the solution", "statement": "solvels(A,b) returns x with A x = b for every non-singular A.", "quantifier": "all sizes and non-singular matrices over an ordered field", "why_tests_cant": "pivoting patterns depend on the data", "anchors": ["src/Optimize/Solver/MMA.h: solvels", "src/Optimize/Solver/CONLIN.h: solvels"]}
{"id": "C51", "title": "CONLIN iterates stay strictly inside their bounds", "statement": "Every inner iteration of CONLIN::UpdateVariables keeps variables strictly inside the bounds and multipliers positive.", "quantifier": "all problem data, directions and iteration counts", "why_tests_cant": "unbounded iterations", "anchors": ["src/Optimize/Solver/CONLIN.h: UpdateVariables"]}
{"id": "C52", "title": "Square meshes are valid grids", "statement": "SquareMesh(x,y,nx,ny) generates (nx+1)(ny+1) nodes at the grid positions, nx*ny elements whose four corners are distinct existing nodes in counter-clockwise order, element areas adding to x*y, each interior edge shared by exactly two elements and GenerateEdges listing exactly the boundary edges once each in a closed counter-clockwise loop.", "quantifier": "all nx, ny >= 1 and sizes", "why_tests_cant": "unbounded mesh sizes", "anchors": ["src/PrePost/Mesher/SquareMesh.h: GenerateNodes, GenerateElements, GenerateEdges"]}
{"id": "C53", "title": "Quadratic square meshes place mid-side nodes on the edges", "statement": "GenerateNodes2/GenerateElements2/GenerateEdges2 produce in-range, pairwise distinct node numbers and each mid-side node is the midpoint of its corner nodes.", "quantifier": "all nx, ny >= 1", "why_tests_cant": "index arithmetic over unbounded sizes", "anchors": ["src/PrePost/Mesher/SquareMesh.h: GenerateNodes2, GenerateElements2, GenerateEdges2"]}
{"id": "C54", "title": "Fixed lists select exactly the nodes satisfying the predicate", "statement": "For every mesher GenerateFixedlist(ulist, pred) lists (n, u) for exactly those nodes n whose coordinates, as returned by GenerateNodes, satisfy pred, and every u in ulist. In a SquareMesh the predicate x < d of the samples, with a positive d of at most the width of an element, fixes exactly the first ny + 1 nodes, those of the left side, and |x - width| < d exactly the last ny + 1, those of the right side. With elements of eight nodes and half of that width, x < d fixes with GenerateFixedlist2 exactly the corners and middle nodes of the left side. In an AnnulusMesh a norm below the inner radius plus a tolerance of at most the thickness of a layer fixes exactly the first nt nodes, those of the inner circle.", "quantifier": "all mesh sizes, predicates and dof lists", "why_tests_cant": "arbitrary predicates; coordinates are recomputed by separate formulas", "anchors": ["src/PrePost/Mesher/SquareMesh.h: GenerateFixedlist", "src/PrePost/Mesher/SquareAnnulusMesh.h: GenerateFixedlist", "src/PrePost/Mesher/AnnulusMesh.h: GenerateFixedlist"]}
{"id": "C55", "title": "Annulus-type meshes close up correctly", "statement": "AnnulusMesh, SquareAnnulusMesh and SquareCircleAnnulusMesh elements refer to existing nodes, wrap around in the circumferential direction, and their boundary edges are exactly the inner and outer rings.", "quantifier": "all mesh sizes", "why_tests_cant": "unbounded sizes; modular wrap-around", "anchors": ["src/PrePost/Mesher/AnnulusMesh.h", "src/PrePost/Mesher/SquareAnnulusMesh.h", "src/PrePost/Mesher/SquareCircleAnnulusMesh.h"]}
{"id": "C56", "title": "Ground structures contain each short bar exactly once", "statement": "GrandStructure2D::GenerateElements lists every unordered pair of distinct nodes closer than lmax exactly once and nothing else.", "quantifier": "all grid sizes and lengths", "why_tests_cant": "unbounded sizes", "anchors": ["src/PrePost/Mesher/GrandStructure.h: GenerateElements"]}
{"id": "C57", "title": "CSV import reads back what the file says", "statement": "Importing a well-formed CSV file (no blanks inside a record) yields exactly the records of the file in order, with 'free' entries omitted.", "quantifier": "all files with any number of records and fields", "why_tests_cant": "unbounded files; stream end-of-file behaviour", "anchors": ["src/PrePost/Import/ImportFromCSV.h: ImportNodesFromCSV, ImportElementsFromCSV, ImportDirichletFromCSV, ImportInitialFromCSV"]}
{"id": "C58", "title": "VTK export followed by import is the identity", "statement": "Points and cells written by AddPointsToVTK/AddElementToVTK are read back unchanged (points padded with zeros to three coordinates) by ImportModelFromVTK.", "quantifier": "all meshes", "why_tests_cant": "unbounded meshes; whitespace tokenisation", "anchors": ["src/PrePost/Export/ExportToVTK.h", "src/PrePost/Import/ImportFromVTK2.h", "src/PrePost/Import/ImportFromVTK.h"]}
{"id": "C59", "title": "Delaunay insertion keeps the triangulation consistent", "statement": "Every insertion and edge swap of the Delaunay mesher keeps the neighbour relation symmetric, keeps all indices valid and preserves the total signed area of the triangulation.", "quantifier": "all triangulations and all sequences of insertions and swaps", "why_tests_cant": "unbounded histories", "anchors": ["src/PrePost/Mesher/Delaunay.h: getelementin, getelementon, swapping"]}
{"id": "C60", "title": "BisectionMethod terminates with a bracket of the sign-count crossing", "statement": "Unless all coefficients are zero, BisectionMethod stops after at most 45 halvings; its result is an end of an interval of length at most 1e-13*b inside [-b, b] whose lower end is -b or has sign count <= mode and whose upper end is b or has sign count > mode. If all coefficients are zero it returns an uninitialised variable.", "quantifier": "all real coefficient vectors, all modes", "why_tests_cant": "termination and bracketing for all coefficient vectors", "anchors": ["src/LinearAlgebra/Solvers/Lanczos.h: BisectionMethod 40-81"]}
{"id": "C61", "title": "The starting interval of BisectionMethod contains every eigenvalue", "statement": "Every eigenvalue of the tridiagonal matrix with diagonal alpha and off-diagonal beta lies in [-b, b] for the bound b computed at the start of BisectionMethod.", "quantifier": "all sizes and coefficients", "why_tests_cant": "all matrices", "anchors": ["src/LinearAlgebra/Solvers/Lanczos.h: BisectionMethod 43-50"]}
{"id": "C62", "title": "The Sturm count of BisectionMethod is the number of smaller eigenvalues", "statement": "For a real tridiagonal matrix with non-zero off-diagonal entries, the number N counted by BisectionMethod at a point lambda is the number of eigenvalues strictly below lambda; the matrix has as many distinct eigenvalues as rows, and BisectionMethod(alpha, beta, mode) returns a value within 1e-13 times the starting bound of eigenvalue number mode in increasing order.", "quantifier": "all sizes, coefficients, points and modes below the size", "why_tests_cant": "all matrices and all points", "anchors": ["src/LinearAlgebra/Solvers/Lanczos.h: BisectionMethod 40-81"]}
{"id": "C63", "title": "Beam and shell stiffness is the strain energy and resists no rigid motion", "statement": "For BeamLinearIsotropicElastic, ShellLinearIsotropicElastic and ShellLinearIsotropicElastic2 the quadratic form of the returned matrix is the integral of the strain energy of the axial and transverse shear (beam) or in-plane and transverse shear (shell) strains of the interpolated displacement; it is non-negative for positive thickness and admissible E, V; every rigid motion (translation plus infinitesimal rotation, with the nodal rotations of that rotation) has zero force, and so have the drilling rotations of the second shell.", "quantifier": "all geometries with positive Jacobian, all directors, all materials, all nodal values, all integration rules with non-negative weights", "why_tests_cant": "continuum of geometries and of displacement fields", "anchors": ["src/FEM/Equation/Beam.h: BeamLinearIsotropicElastic 21-88", "src/FEM/Equation/Shell.h: ShellLinearIsotropicElastic, ShellLinearIsotropicElastic2"]}
{"id": "C64", "title": "Viscous matrices dissipate and do not resist rigid velocities", "statement": "For zero pressure, the quadratic form of StokesStiffness and of NavierStokesStiffness without advection is non-negative, and the forces of a rigid velocity field (translation plus rotation) are zero.", "quantifier": "all geometries, viscosities, velocity fields, complete shape functions", "why_tests_cant": "continuum of geometries; with Dirichlet conditions everywhere the wrong form gives the same solution", "anchors": ["src/FEM/Equation/Stokes.h: StokesStiffness 20-74", "src/FEM/Equation/NavierStokes.h: NavierStokesStiffness 113-162"]}
{"id": "C65", "title": "NavierStokesAdjoint is the transposed Jacobian", "statement": "The matrix returned by NavierStokesAdjoint is the transpose of the Jacobian of the residual returned by NavierStokesTangent, with the signs of the pressure unknowns and of the continuity rows reversed.", "quantifier": "all velocity and pressure fields, geometries, fluids, shape functions and integration rules", "why_tests_cant": "continuum; a wrong adjoint gives plausible but wrong sensitivities", "anchors": ["src/FEM/Equation/NavierStokes.h: NavierStokesAdjoint 758-830, NavierStokesTangent 26-108"]}
{"id": "C66", "title": "SUPG/PSPG stabilisation is consistent and dissipative", "statement": "The matrices of NavierStokesSUPGPSPGStiffness, NavierStokesSUPGPSPGConsistentMass and ContinuitySUPGPSPGStiffness, applied to velocities, rates and pressures, sum to tau times the momentum residual (without viscous part) tested with the advected velocity functions and pressure gradients; they vanish for a state with zero residual; tau is positive; the advection and pressure parts have non-negative quadratic forms.", "quantifier": "all states, advection velocities, geometries, fluids, time steps", "why_tests_cant": "continuum of states", "anchors": ["src/FEM/Equation/NavierStokes.h: NavierStokesSUPGPSPGStiffness 257-330, NavierStokesSUPGPSPGConsistentMass 335-408, ContinuitySUPGPSPGStiffness 413-486"]}
{"id": "C67", "title": "Picard matrices and Newton residual of Navier-Stokes agree", "statement": "With the advection velocity equal to the velocity, NavierStokesStiffness plus ContinuityStiffness applied to the unknowns is minus the vector of NavierStokesTangent; ContinuityStiffness is skew-symmetric, does no work, and its continuity rows integrate the divergence.", "quantifier": "all states, geometries, fluids", "why_tests_cant": "continuum of states", "anchors": ["src/FEM/Equation/NavierStokes.h: NavierStokesTangent 26-108, NavierStokesStiffness 113-162, ContinuityStiffness 210-252"]}
{"id": "C68", "title": "Decoupled Navier-Stokes steps keep totals and constants", "statement": "The consistent and lumped mass matrices have total density times area for each velocity component and no coupling; the pressure matrix is symmetric and annihilates constants; its load has the total -rho/dt times the integrated divergence; a uniform velocity has no load in the prediction and a constant pressure none in the correction step.", "quantifier": "all geometries, fluids, shape functions with partition of unity", "why_tests_cant": "continuum of geometries", "anchors": ["src/FEM/Equation/NavierStokes.h: NavierStokesDecoupledConsistentMass 539-572, NavierStokesDecoupledLumpedMass 577-606, NavierStokesAuxiliaryVelocity 611-650, NavierStokesPressurePoisson 655-700, NavierStokesNextstepVelocity 705-749"]}
{"id": "C69", "title": "Advection matrices transport constants and stabilise", "statement": "Advection integrates N_i times the derivative of the field along the velocity and annihilates constants; AdvectionSUPG and AdvectionShockCapturing are symmetric and positive semi-definite for positive diffusivity; AdvectionSUPG and MassSUPG together vanish for transported fields and do not change totals.", "quantifier": "all geometries, velocities, diffusivities, fields", "why_tests_cant": "continuum", "anchors": ["src/FEM/Equation/Advection.h: Advection 20-45, AdvectionSUPG 50-88, AdvectionShockCapturing 93-131, MassSUPG 190-229"]}
{"id": "C70", "title": "Nonlinear elements are conservative", "statement": "The vector returned by the Total and Updated Lagrange elements is minus the gradient, with respect to the nodal displacements, of the stored energy of the element (St Venant-Kirchhoff, respectively compressible neo-Hooke), and the tangent matrices are symmetric.", "quantifier": "all displacements, geometries, materials", "why_tests_cant": "continuum of displacements; a wrong stress measure still gives plausible results", "anchors": ["src/FEM/Equation/PlaneStrain.h: PlaneStrainStiffnessTotalLagrange 246-312, PlaneStrainStiffnessUpdatedLagrange 315-390", "src/FEM/Equation/Solid.h: SolidTotalLagrange 67-146, SolidUpdatedLagrange 149-240"]}
{"id": "C71", "title": "Updated Lagrange tangent is the derivative of the internal force", "statement": "The tangent returned by PlaneStrainStiffnessUpdatedLagrange and SolidUpdatedLagrange is minus the Jacobian of the vector they return, with respect to the nodal displacements.", "quantifier": "all displacements with positive volume, geometries, materials", "why_tests_cant": "continuum; a wrong spatial modulus only degrades Newton convergence", "anchors": ["src/FEM/Equation/PlaneStrain.h: PlaneStrainStiffnessUpdatedLagrange 315-390", "src/FEM/Equation/Solid.h: SolidUpdatedLagrange 149-240"]}
{"id": "C72", "title": "Nonlinear elements are frame indifferent", "statement": "Rotating the deformed configuration of a Total or Updated Lagrange element rotates the returned vector node by node, and the tangent transforms with it.", "quantifier": "all displacements, rotations, geometries, materials", "why_tests_cant": "continuum; linear elements violate it and only large rotations show it", "anchors": ["src/FEM/Equation/PlaneStrain.h: PlaneStrainStiffnessTotalLagrange, PlaneStrainStiffnessUpdatedLagrange", "src/FEM/Equation/Solid.h: SolidTotalLagrange, SolidUpdatedLagrange"]}
{"id": "C73", "title": "Follower pressure load and tangent", "statement": "PlaneStrainSurfacePressureUpdatedLagrange returns the pressure resultant normal to the deformed edge, and its tangent is symmetric and equals minus the symmetric part of the Jacobian of the load.", "quantifier": "all edges, displacements, pressures", "why_tests_cant": "continuum", "anchors": ["src/FEM/Equation/PlaneStrain.h: PlaneStrainSurfacePressureUpdatedLagrange 455-500"]}
{"id": "C74", "title": "Area, Volume and CenterOfGravity are the geometric quantities", "statement": "Area and Volume scale with the determinant under affine maps and ignore translations; they return the cross product formula for triangles, the shoelace formula for quadrilaterals, the determinant formula for tetrahedra and parallelepipeds. CenterOfGravity is the mean of the nodes, moves with the element and is the image of the centre of the reference element.", "quantifier": "all geometries; all shape functions and rules for the affine statement", "why_tests_cant": "continuum of geometries", "anchors": ["src/FEM/Equation/General.h: Area 21-41, Volume 46-66, CenterOfGravity 71-77"]}
{"id": "C75", "title": "NumericIntegrationOnLine integrates along the line", "statement": "For a two-node line with nodes on a coordinate axis NumericIntegrationOnLine returns the integral of a polynomial over the interval between the nodes, in either order of the nodes, up to the degree of the rule.", "quantifier": "all intervals, polynomials, rules", "why_tests_cant": "continuum", "anchors": ["src/FEM/Equation/Numeric.h: NumericIntegrationOnLine 20-44"]}
{"id": "C76", "title": "Sensitivity filters are weighted means", "statement": "SensitivityFilter returns the weighted mean of s*df/ds divided by the own variable, keeps the sign of the sensitivities for positive variables and is the plain weighted mean for equal variables; SensitivityFilter2 returns the mean weighted with w*s, so it preserves constants and keeps results between the bounds of the sensitivities.", "quantifier": "all neighbour tables with non-negative weights of positive sum, all positive variables, all sensitivities", "why_tests_cant": "unbounded tables", "anchors": ["src/Optimize/Filter/SensitivityFilter.h: SensitivityFilter::GetFilteredSensitivitis, SensitivityFilter2::GetFilteredSensitivitis"]}
{"id": "C77", "title": "OC brackets the multiplier", "statement": "OC::UpdateVariables ends with two multipliers whose relative distance is at most lambdaeps, the lower one lambdamin or reported infeasible by the callback, the upper one lambdamax or reported feasible, and returns the trial design of one of them; larger multipliers never give larger variables.", "quantifier": "all callbacks, designs, sensitivities and starting intervals with positive lambdamin", "why_tests_cant": "bisection length and callback are arbitrary", "anchors": ["src/Optimize/Solver/OC.h: UpdateVariables"]}
{"id": "C78", "title": "IsConvergence tests the relative change", "statement": "IsConvergence(f) of OC, MMA and CONLIN returns true exactly when |f - previous| < eps*|f + previous|.", "quantifier": "all values and tolerances", "why_tests_cant": "continuum; the sign of the sum matters", "anchors": ["src/Optimize/Solver/OC.h: IsConvergence", "src/Optimize/Solver/MMA.h: IsConvergence", "src/Optimize/Solver/CONLIN.h: IsConvergence"]}
{"id": "C79", "title": "Elements are exact for constant states", "statement": "For every affine displacement or temperature field given by its nodal values, the work u'Ke v of the matrices of PlaneStrainStiffness, PlaneStressStiffness, PlaneStrainStiffnessSRI, PlaneStrainStiffnessBbar, SolidLinearIsotropicElastic, HeatTransfer, ReactionDiffusionStiffness and Diffusion is the measure of the element times the product of strain and stress (gradient and flux); for Truss2D it is E A / l times the product of the elongations; a constant state gives ReactionDiffusionReaction the area times the reaction.", "quantifier": "all shapes with regular Jacobian, all affine fields, materials and rules", "why_tests_cant": "continuum of shapes, fields and materials", "anchors": ["src/FEM/Equation/PlaneStrain.h: PlaneStrainStiffness, PlaneStrainStiffnessSRI, PlaneStrainStiffnessBbar", "src/FEM/Equation/PlaneStress.h: PlaneStressStiffness", "src/FEM/Equation/Solid.h: SolidLinearIsotropicElastic", "src/FEM/Equation/HeatTransfer.h: HeatTransfer", "src/FEM/Equation/ReactionDiffusion.h: ReactionDiffusionStiffness, ReactionDiffusionReaction", "src/FEM/Equation/Truss.h: Truss2D"]}
{"id": "C80", "title": "Constitutive matrices are Hooke's law", "statement": "The constitutive matrices built by the plane strain, plane stress and solid routines map every strain to the stress of isotropic Hooke's law with Young's modulus E and Poisson's ratio V (plane strain: no strain out of the plane; plane stress: no stress out of the plane); the volumetric and deviatoric matrices of selective reduced integration are the bulk and shear parts.", "quantifier": "all strains, all E, V for which the matrices are defined", "why_tests_cant": "continuum of materials and strains", "anchors": ["src/FEM/Equation/PlaneStrain.h: PlaneStrainStiffness, PlaneStrainStiffnessSRI", "src/FEM/Equation/PlaneStress.h: PlaneStressStiffness", "src/FEM/Equation/Solid.h: SolidLinearIsotropicElastic"]}
{"id": "C81", "title": "Wilson-Taylor element", "statement": "PlaneStiffnessWilsonTaylor returns the stiffness whose energy is the least energy over all amplitudes of the incompatible modes, and is exact for constant states of every quadrilateral.", "quantifier": "all convex quadrilaterals, materials and affine fields", "why_tests_cant": "continuum of shapes; the error vanishes on parallelograms", "anchors": ["src/FEM/Equation/PlaneStrain.h: PlaneStrainStiffnessWilsonTaylor", "src/FEM/Equation/Homogenization.h: PlaneStiffnessWilsonTaylor"]}
{"id": "C82", "title": "Homogenisation", "statement": "HomogenizePlaneStrainBodyForce returns the load that holds the affine displacement with the macroscopic strain; HomogenizePlaneStrainConstitutive summed over a cell is symmetric, non-negative and at most the average of the element matrices when the characteristic displacements solve the cell problem; HomogenizePlaneStrainCheck is the change of the mean strain by which they differ.", "quantifier": "all cells, materials, characteristic displacements", "why_tests_cant": "unbounded cells, continuum of materials", "anchors": ["src/FEM/Equation/Homogenization.h: HomogenizePlaneStrainBodyForce, HomogenizePlaneStrainConstitutive, HomogenizePlaneStrainCheck"]}
{"id": "C83", "title": "The inner loops of MMA and CONLIN never divide by zero", "statement": "For sensible parameters and a design in the box, MMA::UpdateVariables (and CONLIN::UpdateVariables with positive lower bounds) never divides by zero: every denominator is positive and the reduced linear systems of every inner iteration are nonsingular, whatever function values and derivatives are passed.", "quantifier": "all sizes, data, parameters and numbers of inner iterations", "why_tests_cant": "continuum of data, unbounded iterations", "anchors": ["src/Optimize/Solver/MMA.h: UpdateVariables, solvels", "src/Optimize/Solver/CONLIN.h: UpdateVariables"]}
{"id": "C84", "title": "The search direction of the inner loops is the Newton direction", "statement": "The direction computed in an inner iteration of MMA and CONLIN is the Newton direction of the relaxed optimality conditions: along it every residual that KKTNorm adds up has the derivative minus itself, so the squared norm falls at twice its value.", "quantifier": "all points strictly inside, all data", "why_tests_cant": "continuum", "anchors": ["src/Optimize/Solver/MMA.h: UpdateVariables 249-343, KKTNorm", "src/Optimize/Solver/CONLIN.h: UpdateVariables 197-291"]}
{"id": "C85", "title": "The inner loops return only at a point that satisfies the relaxed optimality conditions", "statement": "When the inner loop of MMA or CONLIN ends, the norm of the relaxed optimality conditions at the returned point, for a relaxation of at most 1e-6, is below nine tenths of the relaxation.", "quantifier": "all data and all numbers of passes", "why_tests_cant": "unbounded iterations", "anchors": ["src/Optimize/Solver/MMA.h: UpdateVariables 199-411", "src/Optimize/Solver/CONLIN.h: UpdateVariables 147-359"]}
{"id": "C86", "title": "MMA and CONLIN nearly solve their subproblem", "statement": "The design returned by UpdateVariables violates the approximate constraints by less than 1e-6 and no feasible point of the convex subproblem has a cost lower by more than 1e-6 times an explicit factor.", "quantifier": "all data and all feasible points", "why_tests_cant": "continuum", "anchors": ["src/Optimize/Solver/MMA.h: UpdateVariables", "src/Optimize/Solver/CONLIN.h: UpdateVariables"]}
{"id": "C87", "title": "CONLIN approximations match the problem at the current design", "statement": "The approximations used by CONLIN have the same value (constraints) and gradient (objective and constraints) as the given data at a design without zeros.", "quantifier": "all data", "why_tests_cant": "continuum", "anchors": ["src/Optimize/Solver/CONLIN.h: UpdateVariables 100-123"]}
{"id": "C88", "title": "Loads, masses, drag and reaction are weak forms", "statement": "The work of an arbitrary virtual field on the vectors of PlaneStrainBodyForce, PlaneStrainSurfaceForce, HeatTransferSurfaceFlux, StokesBodyForce, StokesSurfaceForce, ReactionDiffusionReaction, NavierStokesAuxiliaryVelocity, NavierStokesPressurePoisson and NavierStokesNextstepVelocity, and on the matrices of PlaneStrainMass, HeatCapacity, Mass, ReactionDiffusionConsistentMass, StokesMass, NavierStokesDecoupledConsistentMass, BrinkmanBodyForce, Advection, NavierStokesPressurePoisson and ContinuityStiffness, is the sum over the integration points of the products of the interpolated fields, with the data evaluated at the physical point.", "quantifier": "all elements, rules, coordinates, data functions and virtual fields", "why_tests_cant": "continuum of loads and fields", "anchors": ["src/FEM/Equation/PlaneStrain.h: PlaneStrainBodyForce, PlaneStrainSurfaceForce, PlaneStrainMass", "src/FEM/Equation/Stokes.h: StokesBodyForce, BrinkmanBodyForce", "src/FEM/Equation/NavierStokes.h: ContinuityStiffness, NavierStokesAuxiliaryVelocity", "src/FEM/Equation/ReactionDiffusion.h: ReactionDiffusionReaction", "src/FEM/Equation/Advection.h: Advection, Mass"]}
{"id": "C89", "title": "Vectors and matrices are values", "statement": "In a history of constructions, copies, conversions, assignments, element writes and destructions in which no default-constructed object is destroyed before being assigned, every command ends as it does on independent values: the same assertion fails or every object shows the same dimensions and elements; a write to one object is never seen in another.", "quantifier": "all histories", "why_tests_cant": "unbounded histories and aliasing patterns", "anchors": ["src/LinearAlgebra/Models/Vector.h: constructors, operator=, operator()", "src/LinearAlgebra/Models/Matrix.h: constructors, operator=, operator()"]}
{"id": "C90", "title": "Elements and boundary edges of a mesher enclose the same area", "statement": "For every structured mesher the signed areas of the elements add up to the area enclosed by the edges of GenerateEdges and to the area of the region: the rectangle, the region between two regular polygons, between two rectangles, or between rectangle and polygon in the circle.", "quantifier": "all sizes and numbers of divisions", "why_tests_cant": "real parameters and unbounded sizes", "anchors": ["src/PrePost/Mesher/SquareMesh.h: SquareMesh2", "src/PrePost/Mesher/AnnulusMesh.h", "src/PrePost/Mesher/SquareAnnulusMesh.h", "src/PrePost/Mesher/SquareCircleAnnulusMesh.h"]}
{"id": "C91", "title": "Selected elements and edges", "statement": "GenerateElementIdsSelected and GenerateEdgeIdsSelected return the numbers of exactly those elements or boundary edges all of whose nodes satisfy the predicate, each once. In a SquareMesh the predicates 'near the top', 'near the bottom', 'near the right' and 'near the left side', with a positive tolerance of at most the height or width of an element, select exactly the edges of that side, as in test_Mesher.cpp.", "quantifier": "all sizes, divisions and predicates", "why_tests_cant": "arbitrary predicates", "anchors": ["src/PrePost/Mesher/SquareMesh.h: GenerateElementIdsSelected", "src/PrePost/Mesher/SquareMesh.h: GenerateEdgeIdsSelected", "src/PrePost/Mesher/test_Mesher.cpp:41-46"]}
{"id": "C92", "title": "Elements of the meshers are convex and counter-clockwise", "statement": "With positive sizes every element of the ring shaped meshes is strictly convex with its corners in counter-clockwise order.", "quantifier": "all positive sizes with the inner ring inside the outer one, all numbers of divisions", "why_tests_cant": "real parameters and unbounded sizes", "anchors": ["src/PrePost/Mesher/AnnulusMesh.h", "src/PrePost/Mesher/SquareAnnulusMesh.h"]}
{"id": "C93", "title": "The mesh of a rectangle with a hole is consistent", "statement": "SquareAnnulusMesh2: elements have four different existing corners, every node is used, neighbouring elements fit together, and GenerateEdges lists exactly the sides with an element on one side only.", "quantifier": "all sizes and numbers of divisions with a hole inside the rectangle", "why_tests_cant": "unbounded sizes", "anchors": ["src/PrePost/Mesher/SquareAnnulusMesh.h: SquareAnnulusMesh2"]}
{"id": "C94", "title": "Coordinates of the graded mesh", "statement": "For positive ratios other than one the coordinates of SquareMesh2 increase strictly from zero to the length, symmetrically about the middle, and towards the middle each interval is the ratio times the one before; the ratio one is a division by zero.", "quantifier": "all lengths, ratios and numbers of divisions", "why_tests_cant": "real parameters", "anchors": ["src/PrePost/Mesher/SquareMesh.h: SquareMesh2::GenerateNodes"]}
{"id": "C95", "title": "Initial values without a field stay as they are", "statement": "ImportInitialFromCSV changes only those components of the vector of a node for which the record of the node has a field other than 'free'.", "quantifier": "all files, all vectors", "why_tests_cant": "shorter records than vectors, any lengths", "anchors": ["src/PrePost/Import/ImportFromCSV.h: ImportInitialFromCSV"]}
{"id": "C96", "title": "Data sets written to a VTK file are read back", "statement": "Vectors and scalars written by AddPointVectors, AddPointScalers and AddElementScalers are read back by ImportPOINTVECTORS, ImportPOINTSCALARS and ImportCELLSCALARS with the same symbol, whatever other data sets are written before them, up to the conversion of numbers to text.", "quantifier": "all lists of values, all symbols without blanks and without the section keywords, any text before and after", "why_tests_cant": "unbounded files and any order of data sets", "anchors": ["src/PrePost/Export/ExportToVTK.h: AddPointScalers, AddPointVectors, AddElementScalers", "src/PrePost/Import/ImportFromVTK.h"]}
{"id": "C97", "title": "The VTK import functions may be called in any order", "statement": "Each Import function of ImportModelFromVTK finds its section of the file, whichever of the functions were called before.", "quantifier": "all files and all orders of calls", "why_tests_cant": "depends on the state of the stream left by earlier calls", "anchors": ["src/PrePost/Import/ImportFromVTK.h"]}
{"id": "C98", "title": "sortelement finds the neighbours", "statement": "After sortelement of the Delaunay mesher an element has a neighbour at a side exactly if another element has that side in the other direction, that element is the neighbour, the neighbour relation is symmetric, and nothing but the neighbours has changed; this holds for the elements left after deleteelement.", "quantifier": "all lists of elements in which every directed side occurs at most once", "why_tests_cant": "quadratic search over unbounded element lists", "anchors": ["src/PrePost/Mesher/Delaunay.h: sortelement, deleteelement"]}
{"id": "C99", "title": "sortnode renumbers the corners of the elements", "statement": "sortnode of the Delaunay mesher removes exactly the nodes that are not set and keeps the order of the others; every corner of an element is the same node before and after, and neighbours, orientation and total area stay.", "quantifier": "all node lists and all elements whose corners are set nodes", "why_tests_cant": "the numbers change while the loop runs, for any pattern of unset nodes", "anchors": ["src/PrePost/Mesher/Delaunay.h: sortnode"]}
{"id": "C100", "title": "Laplacian smoothing of the Delaunay mesher", "statement": "laplacesmoothing ends, leaves the elements and the nodes on the boundary as they are, puts every other node at the mean of the nodes around it (nodes with smaller numbers moved already), keeps the total signed area, and moves no node out of a half-plane that contains all nodes; this holds for any number of smoothings in a row.", "quantifier": "all triangulations with symmetric neighbours whose outer sides end in boundary nodes", "why_tests_cant": "the walk around a node is a loop without a bound; all meshes and all node positions", "anchors": ["src/PrePost/Mesher/Delaunay.h: laplacesmoothing"]}
{"id": "C101", "title": "Smoothing keeps the orientation of the elements", "statement": "After laplacesmoothing of a triangulation with counterclockwise elements all elements are counterclockwise.", "quantifier": "all triangulations with symmetric neighbours whose outer sides end in boundary nodes", "why_tests_cant": "needs node positions with a polygon that is not convex", "anchors": ["src/PrePost/Mesher/Delaunay.h: laplacesmoothing"]}
{"id": "C102", "title": "Refinement and smoothing keep the boundary of the mesh", "statement": "If all outer sides of a consistent triangulation are marked and end in nodes on the boundary, then a refinement of makefinemesh keeps this, puts the new node on the boundary exactly if it is in the middle of a marked side, and the smoothing after it ends and moves no node of the boundary. As long as no smoothing turns an element over, this holds after any number of rounds: the area stays, each round adds one node, and GenerateEdges returns exactly the outer sides.", "quantifier": "all consistent triangulations with marked boundary, all bounds, any number of rounds", "why_tests_cant": "any number of refinements and swaps on any triangulation", "anchors": ["src/PrePost/Mesher/Delaunay.h: makefinemesh, getelementon, swapping, laplacesmoothing, GenerateEdges"]}
{"id": "C103", "title": "makefinemesh leaves no side longer than the bound", "statement": "makefinemesh finds the longest side of all active elements; no refinement makes the longest side longer; and when makefinemesh returns, no side is longer than the given bound.", "quantifier": "all consistent triangulations with marked boundary and all bounds", "why_tests_cant": "the last smoothing runs after the last test of the length", "anchors": ["src/PrePost/Mesher/Delaunay.h: makefinemesh, getelementon, swapping"]}
{"id": "C104", "title": "The mesh between the boundaries and the refinement", "statement": "Whatever the boundaries are: inserting them moves no node and sets exactly the listed nodes; the elements that remain are those without a corner of the super triangle for which the first boundary that decides (an outer one with all corners on it, or an inner one with some corner on it) does not have their corners in the order of the element; the nodes that remain are the listed ones, in order, all on the boundary; every corner of a remaining element is the node it was and its marks are kept. If the remaining elements are counterclockwise, no directed side occurs twice and the sides with nothing behind them are marked, the mesh is ready for refinement and smoothing.", "quantifier": "all node lists, all lists of boundaries without repeated nodes, all runs of makeroughmesh that end", "why_tests_cant": "any number of insertions and forced swaps; also triangulations that overlap", "anchors": ["src/PrePost/Mesher/Delaunay.h: Delaunay, makeroughmesh, deactivateelements, deactivatesupertriangle, deleteelement, sortelement, sortnode"]}
{"id": "C105", "title": "Shift-and-invert Lanczos: shifted matrix and residual of the pairs", "statement": "ShiftedInvertLanczos solves with K - sigma I, the general versions with K - sigma M. For every value theta != 0 and vector y with (T - theta) y = r, where T is the tridiagonal matrix of the process, the reconstructed x satisfies K x - (sigma + 1/theta) M x = -(1/theta) (sum of y_j times the residual of the j-th solution + (K - sigma M) (reconstruction of r + last component of y times the last remainder)), and the last remainder has length beta[m-1]. If the shifted matrix is positive definite every solution meets the tolerance 1e-10.", "quantifier": "all CSR matrices, shifts, numbers of steps, all theta != 0 and y", "why_tests_cant": "all matrices and all runs", "anchors": ["src/LinearAlgebra/Solvers/Lanczos.h: ShiftedInvertLanczos, GeneralShiftedInvertLanczos"]}
{"id": "C106", "title": "n steps of the Lanczos processes find exactly the eigenvalues", "statement": "If n steps are possible in n unknowns, the eigenvalues of the matrix (of the pencil) are exactly the eigenvalues of the tridiagonal matrix, or sigma + 1/theta for the shifted versions with exact solutions, and reconstructed eigenvectors are eigenvectors; the vectors of the general version are orthonormal with respect to B.", "quantifier": "all symmetric matrices, positive definite B, all shifts", "why_tests_cant": "all matrices of all sizes", "anchors": ["src/LinearAlgebra/Solvers/Lanczos.h: Lanczos, ShiftedInvertLanczos, GeneralShiftedInvertLanczos, GeneralRestartShiftedInvertLanczos"]}
{"id": "C107", "title": "The loop over older vectors makes the new vector orthogonal to them", "statement": "After the loop over the older vectors in RestartLanczos (GeneralRestartShiftedInvertLanczos) the vector is orthogonal (with respect to B) to the older vectors the loop visits, and differs from the given one by multiples of them.", "quantifier": "all orthonormal families of older vectors, all vectors, all k", "why_tests_cant": "all sizes and numbers of vectors", "anchors": ["src/LinearAlgebra/Solvers/Lanczos.h: RestartLanczos, GeneralRestartShiftedInvertLanczos"]}
{"id": "C108", "title": "A linear static analysis satisfies the boundary conditions and the equilibrium equations", "statement": "SetDirichlet, Renumbering, any sequence of Assembling calls (matrix, matrix and vector, several fields, load, nodal loads), a solver and Disassembling: the listed dofs end with the last listed value, dofs fixed before are unchanged, and the solver's loop ends by its criterion exactly if the norm over the free dofs of sum(Ke u - Fe) is below 1e-10 times the same norm for the given values with the free dofs at zero. If the element matrices are symmetric and together positive definite on fields vanishing at the fixed dofs, some free dof is loaded and there are at most 100000 free dofs, the program with CG or ScalingCG returns and meets the criterion; if no free dof is loaded CG divides zero by zero.", "quantifier": "all meshes, tables, boundary conditions, element matrices and vectors, orders of the calls", "why_tests_cant": "all meshes and all sequences of calls; the residual is stated on the original dofs, not on the renumbered system", "anchors": ["sample/planestrain/sample_planestrain.cpp: main", "sample/heattransfer/sample_heattransfer_static.cpp: main", "src/FEM/Controller/Assembling.h", "src/FEM/Controller/BoundaryCondition.h"]}
{"id": "C109", "title": "The heat and plane-strain programs solve every properly supported mesh of triangles", "statement": "Heat program (ShapeFunction3Triangle, Gauss1Triangle, CG): if every triangle has positive area and existing distinct nodes, conductivity and thickness are positive and every node is joined through elements to a node of given temperature, all element routines are defined, all Assembling calls stay in range, and if some free node is loaded, CG ends by its criterion for up to 100000 nodes. Plane strain program: the same for E>0, -1<V<1/2, t>0, elements that can be reached from each other through common sides, supports that exclude every rigid motion except zero, and every dof either on an element or given.", "quantifier": "all meshes, coordinates, boundary conditions, material constants, body and surface forces", "why_tests_cant": "all meshes; solvability of the assembled system is a statement about the kernel of a matrix built by the whole program", "anchors": ["sample/heattransfer/sample_heattransfer_static.cpp: main", "sample/planestrain/sample_planestrain.cpp: main"]}
{"id": "C110", "title": "Element vectors and reaction forces", "statement": "ElementVector (both overloads) returns one entry per table entry, the nodal values at the local indices. RemoveBoundaryConditions, Renumbering, the loop Assembling(R, Ke*ElementVector(u)) and Disassembling leave at every dof the sum over the elements of the rows of Ke u, whatever marks the table had; entries of r outside the table are unchanged. The work of the reactions on any field is the bilinear form of the element matrices, in particular std::inner_product(u, r) is the strain energy form, and a field without element forces does no work: the reactions of the plane strain program have no resultant force and no resultant moment. After an analysis that met its criterion the reactions equal the loads at the free dofs up to the solver tolerance.", "quantifier": "all meshes, element matrices, tables, displacement fields, loads", "why_tests_cant": "all meshes and fields; balance is an exact identity, a test sees it up to rounding on one mesh", "anchors": ["src/FEM/Equation/General.h: ElementVector", "sample/planestrain/sample_planestrain.cpp: main", "sample/truss/sample_truss_sizeoptimization.cpp: main", "src/FEM/Controller/BoundaryCondition.h: RemoveBoundaryConditions"]}
{"id": "C111", "title": "Compliance sensitivities of the optimisation programs", "statement": "In the truss size optimisation and the density optimisation programs, with displacements in equilibrium with the loads for every design with positive coefficients, f is scale0 times the work of the loads and dfds[i] (dfdrho[i]) is the derivative of f with respect to s[i] (rho[i]), for any mesh of bars of positive length (of quadrilaterals with positive Jacobian at the integration points), also where the structure is a mechanism and the displacements are not unique. No sensitivity is positive if A0 <= A1 (E0 <= E1, p >= 0). For the truss the compliance of any other design is at least the linear approximation f + sum dfds[i]*(s'[i] - s[i]).", "quantifier": "all meshes, supports with zero displacement, loads, materials, designs with positive coefficients", "why_tests_cant": "a finite difference approximates the derivative at one design of one mesh", "anchors": ["sample/truss/sample_truss_sizeoptimization.cpp: main", "sample/optimize/sample_optimize_density_oc.cpp: main", "sample/optimize/sample_optimize_density_mma.cpp: main", "src/FEM/Equation/Truss.h: Truss2D", "src/FEM/Equation/PlaneStrain.h: PlaneStrainStiffness"]}
{"id": "C112", "title": "Time stepping of the heat conduction and reaction-diffusion programs", "statement": "Each time step keeps the values at the nodes with given values and computes a field v whose residual of M(v-u)/dt + K(theta v + (1-theta)u) - F at the free dofs is below 1e-10 times the residual of the held values alone exactly when the solver reports convergence; the first field is the initial one with the boundary values. A step on a mesh of triangles of positive area with every node linked to a given temperature (heat), or of convex quadrilaterals covering all nodes such as any SquareMesh (reaction-diffusion), succeeds for dt>0, theta>0 (theta>=0) unless the right-hand side is zero, in which case ScalingCG divides zero by zero. The equation has exactly one solution there. For theta >= 1/2 exact steps of any size do not increase the mass energy of the distance to a steady field and the dissipated energies sum up to at most the initial one; for theta < 1/2 the energy can grow. Without given values the heat content is constant, and in the reaction-diffusion program the content changes by dt times the integral of the reaction at the old field; constant fields with vanishing reaction are kept.", "quantifier": "all meshes, boundary values, initial fields, material constants, step sizes, theta, reactions, numbers of steps", "why_tests_cant": "stability and conservation over all step sizes, meshes and numbers of steps", "anchors": ["sample/heattransfer/sample_heattransfer_dynamic.cpp: main", "sample/reactiondiffusion/sample_reactiondiffusion.cpp: main", "sample/advection/sample_advectiondiffusion_dynamic.cpp: main", "src/FEM/Equation/ReactionDiffusion.h", "src/FEM/Equation/HeatTransfer.h"]}
{"id": "C113", "title": "Newton loops of the nonlinear programs stop at equilibrium", "statement": "When the Newton loops of the nonlinear static programs (total and updated Lagrange analysis of a solid under loads applied in steps, static Navier-Stokes flow with boundary values applied in steps) are all left through their convergence test, the prescribed dofs have their full prescribed values and the out-of-balance forces at the free dofs, i.e. the sum of the element vectors and loads at the returned field, have a norm below 1e-10 times the norm of the loads (below 1e-10 in the flow program). Each pass that does not stop changes only the free dofs, by an increment that solves the assembled tangent system to the tolerance of the solver, and for the total Lagrange solid the tangent is minus the derivative of the forces, so a pass is a Newton step and the result is a stationary point of the potential energy up to the tolerance.", "quantifier": "for all meshes, materials, boundary conditions, loads, numbers of steps and passes, and all solvers whose flag certifies the residual", "why_tests_cant": "The test compares the square of a norm with a norm and the vector it looks at contains products with prescribed displacements; a run of the samples has loads and supports for which neither shows.", "anchors": ["sample/solid/sample_totallagrange.cpp", "sample/solid/sample_updatedlagrange.cpp", "sample/navierstokes/sample_navierstokes_static.cpp"]}
{"id": "C114", "title": "Linear analysis of a supported solid succeeds and is the first Newton pass", "statement": "On a mesh of parallelepipeds connected through faces, with a positive Young's modulus, a Poisson's ratio between -1 and 1/2 and supports that admit no rigid motion, the linear solid program assembles a positive definite matrix and returns displacements with the convergence flag set whenever a free dof carries a load. The element matrix of a parallelepiped vanishes on exactly the rigid motions of its eight nodes. With supports at zero, the first pass of the first load step of the total Lagrange program solves the same system as the linear program.", "quantifier": "for all such meshes up to 100000 dofs, materials, supports and loads", "why_tests_cant": "A sample run solves one mesh; that eight integration points leave no hourglass mode and that the face connection removes every mechanism are statements about all meshes.", "anchors": ["sample/solid/sample_linear.cpp", "sample/solid/sample_totallagrange.cpp", "src/FEM/Equation/Solid.h"]}
{"id": "C115", "title": "The vibration program returns eigenvalues of the mesh", "statement": "For a plane strain mesh of eight-node quadrilaterals with positive Jacobian, positive constants and every free dof part of an element, the vibration program assembles the stiffness and mass forms over the free dofs, stiffness symmetric and not negative, mass symmetric positive definite, so that with a negative shift every solution inside the shift-and-invert process converges. It returns the requested number of values and fields; the fields vanish at the supports, and value and field satisfy the weak equation of free vibration up to the tolerances, so that with as many steps as free dofs every value is near an eigenvalue.", "quantifier": "for all such meshes, materials, supports, negative shifts and numbers of steps", "why_tests_cant": "A run shows ten numbers; that they are eigenvalues can only be judged against the assembled matrices, and the error of the first vector shows only where its mass norm differs from one.", "anchors": ["sample/vibration/sample_vibration.cpp", "src/LinearAlgebra/Solvers/Lanczos.h", "src/FEM/Equation/PlaneStrain.h"]}
{"id": "C116", "title": "Conjugate gradients on singular systems that have a solution", "statement": "If a matrix is symmetric and not negative and the right-hand side is a product of the matrix with some vector, CG reaches an exact solution within as many steps as unknowns and never divides by zero before. With a positive tolerance and at least as many iterations as unknowns, CG and ScalingCG return and report convergence, ScalingCG under the further condition that no diagonal entry is zero; with a zero diagonal entry ScalingCG gives no result. Without a solution no iterate satisfies the system, and the part of the residual in the kernel never changes.", "quantifier": "for all sizes, symmetric non-negative matrices, right-hand sides, tolerances and iteration limits", "why_tests_cant": "Singular systems are exactly those where a run may divide zero by zero; that it never happens before the solution is found is a statement about all Krylov spaces.", "anchors": ["src/LinearAlgebra/Solvers/CG.h"]}
{"id": "C117", "title": "The weak springs make the cell problem uniquely solvable", "statement": "For a periodic cell with positive material constants, matrix and right-hand sides assembled by the homogenisation program are the energy of the strains of periodic fields plus the work of the weak springs, and the loads of the three macroscopic strains. With springs of positive stiffness the matrix is symmetric positive definite, so that the characteristic displacements are unique.", "quantifier": "for all meshes, periodic pairs without chains, materials and spring stiffnesses", "why_tests_cant": "A run converges to some solution whether or not it is unique.", "anchors": ["sample/homogenization/sample_homogenization.cpp", "sample/optimize/sample_optimize_homogenization.cpp", "src/FEM/Equation/General.h", "src/FEM/Equation/Homogenization.h"]}
{"id": "C118", "title": "The homogenisation program returns the least energy stiffness of the cell", "statement": "For every periodic cell with positive material constants whose nodes belong to elements, the homogenisation program returns. The characteristic displacements are periodic and in balance with the macroscopic strains up to the tolerance of the solver; volume times the energy of the returned matrix is the least energy over all periodic displacements, springs included, up to the work of the imbalance, so that the matrix is symmetric, not negative and at most the mean stiffness up to the tolerance. The printed check and the volume of the material determine the matrix.", "quantifier": "for all meshes, periodic pairs without chains, materials and spring stiffnesses", "why_tests_cant": "A run gives nine numbers for one cell; that they are the least energy compares with all periodic displacements.", "anchors": ["sample/homogenization/sample_homogenization.cpp", "src/FEM/Equation/Homogenization.h", "src/LinearAlgebra/Solvers/CG.h"]}
{"id": "C119", "title": "Tensors, compliance and sensitivities of the lattice optimisation program", "statement": "The tensor of an element is the tensor of unit cells interpolated in the two sizes, turned by the angle of the third variable: its energy is that of the strain in the turned axes, at an abscissa without rotation it is the tensor of that cell, and it is positive definite if and only if it is without rotation. Whenever the tensors of a design are positive definite and the displacements are in equilibrium, the printed objective is the work of the loads and dfda, dfdb, dfdt are its exact derivatives with respect to every design variable, the displacements following the design. Such displacements exist for every mesh held by its supports. The printed weight is the mean filled area over the limit less one with derivatives dgda, dgdb, dgdt, and the vector of the optimiser can be taken apart again.", "quantifier": "for all tables with distinct abscissae and symmetric tensors, meshes of eight-node quadrilaterals with positive Jacobian, supports, nodal loads and designs", "why_tests_cant": "A finite difference at one design checks a few digits of one derivative; the claim is exactness of all derivatives at all designs.", "anchors": ["sample/optimize/sample_optimize_homogenization.cpp", "src/FEM/Equation/Homogenization.h", "src/FEM/Equation/General.h"]}
{"id": "C120", "title": "Problem and analyses of the lattice optimisation program on its square mesh", "statement": "The macroscopic problem that the program builds from SquareMesh consists of rectangles with eight nodes and positive Jacobian; exactly the dofs of the nodes chosen by the first predicate are fixed, at zero, and exactly the nodes chosen by the second predicate carry the load, in the second direction. If the first predicate chooses the left side, the supports leave no rigid motion and no other motion without strain. Then for every design with positive definite tensors, a load that is not zero and a loaded node that is not fixed, the analysis returns with convergence reported, the fixed dofs do not move, and the forces balance the loads up to 1e-10 of their norm. In particular this holds for the 60 by 40 mesh of the program with either meaning of the unqualified abs.", "quantifier": "for all square meshes with positive sides and at most 50000 nodes, predicates, loads, cell tables with distinct abscissae and designs with positive definite tensors", "why_tests_cant": "A run shows convergence for the designs of one optimisation; the claim is for every design and every mesh size.", "anchors": ["sample/optimize/sample_optimize_homogenization.cpp", "src/PrePost/Mesher/SquareMesh.h", "src/LinearAlgebra/Solvers/CG.h"]}
{"id": "C121", "title": "Interpolated lattice tensors are positive definite", "statement": "If all tensors of the unit cells are positive definite, the tensor that the program interpolates from them is positive definite for every design within the bounds of the optimiser.", "quantifier": "for all cell tables on the abscissae of the program and all designs between 0.001 and 0.999", "why_tests_cant": "The interpolation is right at the abscissae and looks smooth for tables that vary little; the negative weights only show for tables with a large spread.", "anchors": ["sample/optimize/sample_optimize_homogenization.cpp", "src/FEM/Equation/General.h"]}
{"id": "C122", "title": "Problem and analyses of the density programs on their square mesh", "statement": "The problem that the density programs build from SquareMesh consists of rectangles with positive Jacobians; exactly the dofs of the nodes chosen by the first predicate are fixed, at zero, and exactly the nodes chosen by the second carry the load, in the second direction. If the first predicate chooses the left side, the supports leave no rigid motion. Then, for every list of densities with positive moduli and a load at a node that is not fixed, the analysis returns with convergence reported, the fixed dofs do not move and the forces balance the loads up to 1e-10 of their norm; displacements in exact equilibrium exist for every design. For the 60 by 40 mesh of the programs, with either meaning of the unqualified abs, only node 2480 at (60,20) is loaded, exactly the nodes 0 to 40 are fixed, and every list of densities between 0 and 1 is analysed successfully.", "quantifier": "for all square meshes with positive sides and at most 50000 nodes, predicates, loads, admissible materials and densities with positive moduli", "why_tests_cant": "A run shows convergence for the designs of one optimisation; the claim is for every design and every mesh size.", "anchors": ["sample/optimize/sample_optimize_density_mma.cpp", "sample/optimize/sample_optimize_density_oc.cpp", "sample/optimize/sample_optimize_density_CONLIN.cpp", "src/PrePost/Mesher/SquareMesh.h", "src/LinearAlgebra/Solvers/CG.h"]}
{"id": "C123", "title": "The density optimisation programs from the mesh to the last pass", "statement": "The three programs that optimise densities with MMA, CONLIN and OC never perform an undefined operation. Their filter weights are max(0, 1-d/R) at the distance d of the element centres. In every pass the design has one variable per element, in [0.01,1] for MMA and CONLIN and in (0,1] for OC; the filtered densities lie in [0,1], the solver reports convergence with forces that balance the loads up to 1e-10 of their norm, the supports do not move, the objective is the scaled plane strain energy of the displacements with the moduli E1 rho^p + E0 (1-rho^p) and positive, the weight is that of the filtered densities; the sensitivities handed to the optimiser are the filtered derivatives with respect to the densities, nowhere positive for the objective and positive for the weight. The next design is the one that the optimiser makes of these values. The parameter of the filter is 2^(k/40) in pass k. From one pass to the next no variable changes by 0.198 or more (MMA, CONLIN) or by more than 15 per cent (OC). The programs end after the first pass k >= 1 whose objective satisfies |f_k - f_(k-1)| < eps (f_k + f_(k-1)), after 500 passes, or inside an optimiser that does not return; they never end before the second pass.", "quantifier": "for all meshes of at most 50000 nodes held at the left side and loaded at a node that is not held, admissible materials, moduli 0 < E0 <= E1, filter radii, and any bound on the inner loops", "why_tests_cant": "A run of a program is one trajectory on one mesh; the claim is about every trajectory, in particular that no pass on any mesh can divide by zero, fail to analyse or leave the box.", "anchors": ["sample/optimize/sample_optimize_density_mma.cpp", "sample/optimize/sample_optimize_density_CONLIN.cpp", "sample/optimize/sample_optimize_density_oc.cpp", "src/Optimize/Solver/MMA.h", "src/Optimize/Solver/CONLIN.h", "src/Optimize/Solver/OC.h", "src/Optimize/Filter/HeavisideFilter.h"]}
{"id": "C124", "title": "The level set optimisation program from the mesh to the last pass", "statement": "In every pass of the level set program the analysis converges, the supports do not move, the objective is the strain energy of plane stress and positive, and the topological derivative is (1e-4 + 0.9999 str) times the integral of A1 (tr e)^2 + 2 A2 e:e, nowhere negative; its nodal values are the means over the adjacent elements, nowhere negative and not all zero, and the multiplier is their mean times exp(p((vol-ex)/ex + d)) where ex falls linearly from 1 to Vmax within nvol passes. The level set function has values in [-1,1], every shape is 0 or 1 in each element. From one pass to the next the function is an implicit Euler step of the reaction-diffusion equation with source C (TDN - lambda), zero on the fixed nodes and cut off at 1 and -1, and an element is empty exactly if the mean of the function over it is negative. The program ends after the first pass t > nvol whose volume is within 0.005 of the target and whose objective differs by less than one per cent from those of the five passes before, after the given number of passes, or, exactly if the right-hand side of the level set equation vanishes at all free nodes, in a division of zero by zero in the solver; for the program's own mesh this does not happen in the first pass.", "quantifier": "for all meshes of at most 50000 nodes held at the left side and loaded at a node that is not held, all sets of nodes where the level set function is fixed, -1 < nu < 1 with nu != 1/2, positive moduli, 0 < Vmax <= 1, tau >= 0, dt > 0, nvol >= 4 and all numbers of passes", "why_tests_cant": "A run is one trajectory on one mesh; the claim covers every shape the loop can reach, and the failure happens only for right-hand sides that no sample run meets.", "anchors": ["sample/optimize/sample_optimize_levelset.cpp", "src/FEM/Equation/ReactionDiffusion.h", "src/FEM/Equation/PlaneStress.h", "src/FEM/Equation/General.h"]}
{"id": "C125", "title": "The decoupled Navier-Stokes program from the mesh to the last time step", "statement": "The program succeeds in everything before its loop: the nodes of the top move with (1,0), the other sides stand still and the pressure is zero in the middle of the bottom. In every time step the auxiliary velocity is the explicit step rho (v-u)/dt + rho (u grad) u - mu laplace u = 0 in weak form with the mass of each element spread evenly over its nodes, the pressure satisfies laplace p = rho/dt div v up to 1e-10 of the right-hand side and the solver reports success, the next velocity satisfies rho (u'-v)/dt + grad p = 0, and all three fields have their boundary values; velocities that satisfy these equations are unique. The only exception is a step whose auxiliary velocity is divergence free at all nodes without given pressure: exactly then the solver divides zero by zero. A fluid at rest between walls at rest fails in this way in the first step, and the lid-driven cavity never does so in the first step.", "quantifier": "for all quadrilateral meshes with positive Jacobians linked to nodes of given pressure and at most 100000 nodes, all boundary velocities, positive density and time step, any viscosity and all numbers of steps; the statements about the cavity for all rectangles with at least two elements in each direction and positive viscosity", "why_tests_cant": "A run is one trajectory on one mesh; that every step of every run satisfies its equations, and that the failure for divergence free fields is the only one, concerns all fields that the loop can reach.", "anchors": ["sample/navierstokes/sample_navierstokes_decoupled.cpp", "src/FEM/Equation/NavierStokes.h", "src/FEM/Equation/General.h", "src/LinearAlgebra/Solvers/CG.h"]}
{"id": "C126", "title": "The truss programs from the ground structure to the last pass", "statement": "The element matrix of a bar gives every displacement the energy EA/l times the square of the elongation. A ground structure whose limit on the length of bars exceeds the diagonal of a cell is stiff as soon as two of its nodes are held. Both programs build a problem on 15 nodes held at (0,0) and (0,2000) and loaded at (4000,1000), whichever overload of abs the compiler takes. In every pass of the size optimisation the solver converges, the axial forces of the bars balance the loads at all free degrees of freedom, compliance and its sensitivities and the weight and its sensitivities are those of the design, the variables stay in (0,1] and change by at most 15 per cent, and there are at most 50 passes. The program for full stress converges, its axial forces balance the loads, and every bar gets the section that carries its axial force at the admissible stress.", "quantifier": "for all ground structures with cells of positive size, all predicates for supports and loads that hold two nodes and load a free one, all positive moduli, sections, stresses and limits, all designs in (0,1], and all numbers of passes", "why_tests_cant": "A run shows the designs of one ground structure; stiffness of every ground structure and soundness of every design that the optimiser can reach are statements over infinitely many inputs.", "anchors": ["sample/truss/sample_truss_sizeoptimization.cpp", "sample/truss/sample_truss_totalstressdesign.cpp", "src/PrePost/Mesher/GrandStructure.h", "src/FEM/Equation/Truss.h", "src/Optimize/Solver/OC.h"]}
{"id": "C127", "title": "Programs that solve velocities and pressure in one system", "statement": "A run of the Galerkin, SUPG and Stokes time loops that returns has in every step fields that keep the given values; the program reports convergence exactly if in every step the residual of the weak momentum and continuity equations over the free degrees of freedom is below 1e-10 times that of the given values alone. The advection velocity is zero in the first step and the velocity of the step before afterwards. The driven cavity program runs the SUPG loop on the unit square with velocity one at the lid, zero at the other sides and no given pressure. An exact Galerkin step gives velocities that are weakly divergence free, and for theta at least 1/2 without inflow by advection the kinetic energy does not grow when all given values are zero. On a mesh that is not degenerate only the solver can fail. With all given values and tractions zero the programs divide zero by zero.", "quantifier": "for all meshes, shape functions, integration rules, given values, densities, viscosities, time steps, theta, numbers of steps and solvers that report convergence correctly", "why_tests_cant": "A run shows one flow on one mesh; the weak equations met by every step of every run are statements over infinitely many fields.", "anchors": ["sample/navierstokes/sample_navierstokes_dynamic.cpp", "sample/navierstokes/sample_navierstokesSUPG_dynamic.cpp", "sample/stokes/sample_stokes_dynamic.cpp", "src/FEM/Equation/NavierStokes.h", "src/FEM/Equation/Stokes.h"]}
{"id": "C128", "title": "A step of the coupled flow programs determines the new field", "statement": "Given the field before, at most one field with the given values satisfies the equations of a time step exactly at all nodes: velocities and pressures are determined.", "quantifier": "for all meshes, given values, material and time parameters and fields before the step, for the Galerkin, SUPG and Stokes programs", "why_tests_cant": "A run shows one answer of an iterative solver and cannot tell whether other fields satisfy the equations as well.", "anchors": ["sample/navierstokes/sample_navierstokes_dynamic.cpp", "sample/navierstokes/sample_navierstokesSUPG_dynamic.cpp", "sample/stokes/sample_stokes_dynamic.cpp", "src/FEM/Equation/NavierStokes.h", "src/FEM/Equation/Stokes.h"]}
{"id": "C129", "title": "The Stokes program gives divergence free velocities", "statement": "After every exact step of sample_stokes_dynamic.cpp the velocities are weakly divergence free, that is, for all test pressures that vanish where pressure is given.", "quantifier": "for all meshes, given values, tractions, material and time parameters and numbers of steps", "why_tests_cant": "A run shows one flow; whether the divergence vanishes for all test pressures after every step of every run is a statement over infinitely many fields.", "anchors": ["sample/stokes/sample_stokes_dynamic.cpp", "src/FEM/Equation/Stokes.h"]}
{"id": "C130", "title": "The stationary advection-diffusion program solves a well posed transport problem", "statement": "On every mesh of triangles of positive area and for every velocity that is not zero, sample_advectiondiffusion_static.cpp assembles the weak form of w.grad T - k lap T = 0 with streamline diffusion; a run gives T the prescribed values and reports convergence exactly if the residual of this weak form is below 1e-10 times that of the prescribed values. If the triangles fit together, the values are given where the flow enters and k is positive, the equations have exactly one solution, it is constant if the given values are, and its distance to any field with the given values is bounded by the work of the residuals of that field.", "quantifier": "for all triangle meshes, velocities, diffusion coefficients, given values and certifying solvers", "why_tests_cant": "A run shows one mesh and one wind; well-posedness and the bound are statements about all fields on all meshes.", "anchors": ["sample/advection/sample_advectiondiffusion_static.cpp", "src/FEM/Equation/Advection.h"]}
{"id": "C131", "title": "Every run of the rotation program satisfies the transport equation step by step", "statement": "On every mesh of triangles of positive area sample_advectiondiffusion_dynamic.cpp computes its element matrices exactly if the velocity vanishes at no centroid; otherwise it divides zero by zero in its first step. A run gives fields for all steps: the first is the bump with the given values, the given values stay, and convergence is reported in all steps exactly if in each the residual of the weak form of (v - u)/dt + w.grad(theta v + (1-theta) u) - k lap(theta v + (1-theta) u) with streamline diffusion is below 1e-10 times that of the held values. Constant fields stay.", "quantifier": "for all triangle meshes, velocity fields, diffusion coefficients, time parameters, given values, numbers of steps and certifying solvers", "why_tests_cant": "A run shows one mesh and one rotation; that no mesh or velocity leads to another equation is a statement about all of them.", "anchors": ["sample/advection/sample_advectiondiffusion_dynamic.cpp", "src/FEM/Equation/Advection.h"]}
{"id": "C132", "title": "A step of the rotation program determines the field", "statement": "On every mesh of triangles of positive area with no velocity zero at a centroid, the equations of one time step of sample_advectiondiffusion_dynamic.cpp have at most one solution for every current field.", "quantifier": "for all triangle meshes, given values and current fields", "why_tests_cant": "A solver that returns shows one solution; whether others exist is a statement about all fields.", "anchors": ["sample/advection/sample_advectiondiffusion_dynamic.cpp", "src/FEM/Equation/Advection.h"]}
{"id": "C133", "title": "The beam program solves beam theory", "statement": "sample_beam_linear.cpp, on every mesh of beams that extend along the first axis, assembles the virtual work of axial forces, mid-span shear forces, torques and bending moments minus the nodal loads. If the supports of every connected part allow no rigid motion, the equations have exactly one solution for all given values and loads and the program computes it to its tolerance. For a cantilever of N equal elements with any six tip loads this solution has the axial displacements, twists and slopes of beam theory at all nodes and its deflections up to F h^2 s/(12 E I). A beam upright to the first axis makes the program divide by zero.", "quantifier": "for all meshes of beams, supports, loads, materials and sections; for all numbers of elements", "why_tests_cant": "A run shows one mesh and one load; stiffness against every motion, and the exact error for every division, are statements about all of them.", "anchors": ["sample/beam/sample_beam_linear.cpp", "src/FEM/Equation/Beam.h"]}
{"id": "C134", "title": "The shell program determines the displacements", "statement": "sample_shell_linear.cpp, on every flat mesh of convex quadrilaterals, assembles the virtual work of membrane forces, bending moments and transverse shear forces at the centres of the elements minus the nodal loads, and every run that reports convergence solves these equations to the tolerance. On every rectangular grid held along its left side the equations determine the displacements and the rotations.", "quantifier": "for all flat meshes, supports, loads, materials and thicknesses; for all grids", "why_tests_cant": "A run returns one field; that the same equations have other solutions, and on which grids they do, is a statement about all fields.", "anchors": ["sample/shell/sample_shell_linear.cpp", "src/FEM/Equation/Shell.h"]}
{"id": "C135", "title": "The steady Stokes program poses a solvable cavity problem that determines velocities and pressures", "statement": "sample_stokes_static.cpp, on every grid over the unit square, sets up the driven cavity: velocity (1, 0) at the nodes of the lid, zero at the other walls, nothing given inside. Its equations are the weak form of steady Stokes flow with the body force; for every grid, viscosity and body force they have a solution, which is divergence free for all test pressures. A run that returns has the given values and reports convergence exactly if the residuals at the free dofs are below 1e-10 times those of the given values. The equations determine velocities and pressures.", "quantifier": "for all grids of at most 5000 times 5000 elements, viscosities, lid velocities and body forces; the equations and runs for all meshes that are not degenerate", "why_tests_cant": "A run returns one field; that a solution exists on every grid, and which other fields satisfy the same equations, is a statement about all fields.", "anchors": ["sample/stokes/sample_stokes_static.cpp", "src/FEM/Equation/Stokes.h", "src/PrePost/Mesher/SquareMesh.h"]}
{"id": "C136", "title": "The iterative solvers on std::vectors of any length", "statement": "Each vector kernel of CG.h (subtract, xexpay, xeaxpy, zeaxpby, zeawpbxpcy, zeawpbxmypcz, xeaxpbypcz, zeavpbwpcxpdy, and std::inner_product as called there) is defined exactly when no other operand is shorter than the one its loop runs over, and on operands of one length returns the expression of its title. CG, ScalingCG, ILU0CG, SORCG, BiCGSTAB, ScalingBiCGSTAB, ILU0BiCGSTAB and BiCGSTAB2, called with any matrix, any vector b and at least one iteration allowed, return the vector and message of the same method over vectors with b.size() entries, and have no defined result in exactly the same cases, in particular when the matrix has not b.size() rows. Hence for symmetric positive definite matrices and b not zero, CG and ScalingCG with at least b.size() iterations return a vector of b.size() entries whose residual meets the tolerance.", "quantifier": "for all matrices, vectors of any length, coefficients, tolerances and iteration bounds", "why_tests_cant": "A read past the end of a vector usually goes unnoticed in a run, and a test fixes the lengths.", "anchors": ["src/LinearAlgebra/Solvers/CG.h"]}
{"id": "C137", "title": "The element routines on objects of the Matrix and Vector classes", "statement": "PlaneStrainStiffness, its selective-reduced, B-bar and Wilson-Taylor variants, PlaneStressStiffness, PlaneStiffness, the plane mass matrices, body forces and surface forces, SolidLinearIsotropicElastic, HeatTransfer, HeatCapacity and HeatTransferSurfaceFlux, read statement by statement (fresh Matrix and Vector objects filled by assignments to entries, class operators with their assertions, factors multiplied one after the other), return for every element, dof list, node table, shape function family, integration rule with at least one point and material the entry table and the storage of the mathematical element matrix (entry (k*i+a, k*j+b) for components a, b of nodes i, j), and have no defined result in exactly the same cases: a dof list of the wrong length, an element whose number of nodes is not that of the shape functions, a node outside the table, a singular Jacobian, a material that makes a divisor zero. The stored plane stiffness matrices are symmetric and vanish on rigid motions.", "quantifier": "for all elements, dof lists, node tables, coordinates, shape functions, integration rules with a point, materials and loads", "why_tests_cant": "A test fixes one element type and one mesh; a wrong offset in a block or a missing factor shows only for some shapes.", "anchors": ["src/FEM/Equation/PlaneStrain.h", "src/FEM/Equation/PlaneStress.h", "src/FEM/Equation/Homogenization.h", "src/FEM/Equation/Solid.h", "src/FEM/Equation/HeatTransfer.h", "src/LinearAlgebra/Models/Matrix.h", "src/LinearAlgebra/Models/Vector.h"]}
{"id": "C138", "title": "The lattice optimisation program from the mesh to the last pass", "statement": "The program of sample_optimize_homogenization.cpp, given the tables of homogenised tensors: its mesh has 2400 elements and 7401 nodes, the left side is held and the middle of the right side loaded. In every run of the loop the first design is 1/2 everywhere, all variables stay in [0.001, 0.999] and change by less than 0.00998 in a pass; weight, objective and sensitivities of every pass are those of its design and displacements (mean occupied area over the limit less one; work of the stresses on the strains; derivatives with the displacements held fixed); the designs are those MMA makes of them, with the three variables of an element next to each other; an operation is undefined only if a design has a tensor that is not positive definite. If all tensors in the box are positive definite no operation is undefined, the solver converges in every pass with a residual below 1e-10 of the loads, the objective is positive, and the run ends after the first pass with a settled objective, not before the second pass, after 600 passes, or in an inner loop of MMA that does not return.", "quantifier": "for all tables over distinct sizes, meshes of positive eight-node quadrilaterals held by their supports, loads and limits, and all executions of the loop", "why_tests_cant": "A run of 600 passes with 7200 variables shows one path of designs for one set of tables; it does not show that no path leaves the box, reads outside an array or divides by zero.", "anchors": ["sample/optimize/sample_optimize_homogenization.cpp", "src/Optimize/Solver/MMA.h"]}
{"id": "C139", "title": "MMA and CONLIN on std::vectors of any length", "statement": "MMA and CONLIN objects accept vectors of any length. If every vector passed to the constructor and to UpdateVariables has at least n (variables) or m (constraints) entries, UpdateVariables does exactly what it does with n variables and m constraints, whenever that divides by nothing that is zero, and reads no entry outside a vector; longer vectors make no difference. With a box that has an interior and contains the design, and sensible parameters, it never divides by zero, the new design has exactly n entries, each strictly inside the box and the move limit, and the object is ready for the next call, over any sequence of calls. If one of the vectors has too few entries the call is undefined.", "quantifier": "all n, m, vectors, parameters, bounds on the passes of the inner loop and sequences of calls", "why_tests_cant": "reads past the end of a vector need not show, and the inner loop has no bound on its passes", "anchors": ["src/Optimize/Solver/MMA.h: MMA, SetParameters, UpdateVariables, KKTNorm", "src/Optimize/Solver/CONLIN.h: CONLIN, SetParameters, UpdateVariables, KKTNorm"]}
{"id": "C140", "title": "Diffusion, advection, B-bar and homogenisation routines on objects of the Matrix and Vector classes", "statement": "The routines of ReactionDiffusion.h (consistent and lumped mass, stiffness, reaction term), of Advection.h (advection, its mass, AdvectionSUPG, AdvectionShockCapturing, MassSUPG), PlaneStiffnessBbar, PlaneStiffnessWilsonTaylor, HomogenizePlaneStrainBodyForce, HomogenizePlaneStrainConstitutive and HomogenizePlaneStrainCheck of Homogenization.h, read statement by statement with Matrix and Vector objects, return for all inputs the entry table and the storage of the mathematical element matrix or vector, and have no defined result in exactly the same cases. Stored diffusion and mass matrices are symmetric entry by entry; a D that is not 3 x 3 has no defined result; with the velocity zero the three stabilised advection routines divide by zero.", "quantifier": "all element lists, dof lists, node tables, shape function families, integration rules with at least one point, materials, velocities, nodal fields and reaction functions", "why_tests_cant": "the sizes, tables and numbers are unbounded, and a read outside an object or a failed assertion may not show in a run", "anchors": ["src/FEM/Equation/ReactionDiffusion.h:20-132", "src/FEM/Equation/Advection.h:20-229", "src/FEM/Equation/Homogenization.h:20-280"]}
{"id": "C141", "title": "Stokes and Navier-Stokes routines on objects of the Matrix and Vector classes", "statement": "The routines of Stokes.h (stiffness, mass, body force, surface force) and of NavierStokes.h (consistent mass, stiffness, tangent, adjoint, Brinkman and continuity terms, the three SUPG routines, the mass, lumped mass, auxiliary velocity, next step and pressure Poisson routines of the decoupled scheme), read statement by statement with Matrix and Vector objects, return for all inputs the entry tables and the storage of the mathematical element matrix or vector, and have no defined result in exactly the same cases. The Stokes and mass routines take the number of velocity nodes from the element: on a list with fewer nodes than the velocity shape functions they return the matrix of the first shape functions, on a longer list they read outside an object. The stored Stokes matrix is symmetric entry by entry.", "quantifier": "all element lists, dof lists, node tables, shape function families, integration rules with at least one point, densities, viscosities, permeabilities, time steps, nodal velocities and pressures and load functions", "why_tests_cant": "the sizes, tables and numbers are unbounded, and a read outside an object or a failed assertion may not show in a run", "anchors": ["src/FEM/Equation/Stokes.h:20-258", "src/FEM/Equation/NavierStokes.h:26-872"]}
{"id": "C142", "title": "Geometrically nonlinear routines on objects of the Matrix and Vector classes", "statement": "PlaneStrainStiffnessTotalLagrange, SolidTotalLagrange, PlaneStrainStiffnessUpdatedLagrange, SolidUpdatedLagrange and PlaneStrainSurfacePressureUpdatedLagrange, read statement by statement with Matrix and Vector objects, return for all inputs the entry table and the storage of the mathematical tangent and residual, and have no defined result in exactly the same cases. The stored total Lagrange tangents and the stored pressure tangent are symmetric entry by entry. The element loops of sample_totallagrange.cpp and sample_updatedlagrange.cpp hand exactly these objects to the assembly.", "quantifier": "all element lists, dof lists, node tables, displacements, shape function families, integration rules with at least one point, material constants and pressures", "why_tests_cant": "the sizes, tables, displacements and numbers are unbounded, and a read outside an object, a failed assertion or a logarithm of a number that is not positive may not show in a run", "anchors": ["src/FEM/Equation/PlaneStrain.h:246-381", "src/FEM/Equation/PlaneStrain.h:455-498", "src/FEM/Equation/Solid.h:67-228", "sample/solid/sample_totallagrange.cpp:51-57", "sample/solid/sample_updatedlagrange.cpp:51-57"]}
{"id": "C143", "title": "Truss, beam and shell routines on objects of the Matrix and Vector classes", "statement": "Truss2D, BeamLinearIsotropicElastic and the two shell routines ShellLinearIsotropicElastic and ShellLinearIsotropicElastic2, read statement by statement with Matrix and Vector objects (rows stacked with Vstack, directions normalised with Normal, frames made with VectorProduct, blocks copied into the rotation), return for nodal vectors of the size the routine works with the entry table and the storage of the mathematical element matrix, and have no defined result in exactly the same cases. The stored beam and shell matrices are symmetric entry by entry. Unlike the routines that read single components, the shell routines have no result when no node has exactly three coordinates, also when every node has more, and the beam routine has none when no first direction has exactly three components. The element loops of sample_beam_linear.cpp and sample_shell_linear.cpp hand exactly these objects to the assembly.", "quantifier": "all element lists, dof lists, node tables and nodal directions of the stated sizes, shape function families, integration rules, material constants and thicknesses", "why_tests_cant": "the sizes, tables, frames and numbers are unbounded, and a vector of another size, a zero length direction or a read outside an object need not show in a run with assertions compiled out", "anchors": ["src/FEM/Equation/Truss.h:21-40", "src/FEM/Equation/Beam.h:21-88", "src/FEM/Equation/Shell.h:21-100", "src/FEM/Equation/Shell.h:105-185", "sample/beam/sample_beam_linear.cpp:30-47", "sample/shell/sample_shell_linear.cpp:51-56"]}
{"id": "C144", "title": "HeavisideFilter as an object, and the effect of its parameter", "statement": "On a HeavisideFilter object any sequence of UpdateBeta, GetFilteredVariables and GetFilteredSensitivitis changes nothing but the parameter; every query answers with the parameter given last (1 before the first UpdateBeta) and queries have no influence on each other. For tables of nonnegative weights with positive sums every sequence of calls with parameters other than 0 and vectors of n entries has a result and all returned vectors have n entries; after UpdateBeta(0) there are no filtered variables; an object built without arguments answers with empty vectors. A parameter and its negative filter alike, and void and material are treated alike. Raising a positive parameter moves no projected density towards 1/2, so that the filtered design is no greyer (sum of 4 rho (1 - rho)). For large parameters the projection tends to the step at 1/2, for parameters near 0 to the identity.", "quantifier": "all sequences of calls, tables, parameters, design variables in [0,1] and derivatives", "why_tests_cant": "sequences of calls and real parameters are unbounded, and limits and monotonicity in a real parameter cannot be observed in finitely many runs", "anchors": ["src/Optimize/Filter/HeavisideFilter.h:17-99", "sample/optimize/sample_optimize_density_mma.cpp:90-93"]}
{"id": "C145", "title": "OC solves its reciprocal approximation exactly", "statement": "For positive design variables at most 1, derivatives of the objective at most 0 and positive derivatives of the constraint: for every exponent a trial design of OC::UpdateVariables meets the first order conditions of the problem with derivatives df_i (x_i / y_i)^(1/iota) within the move limits. With the exponent 1/2, whatever the callback answers, a returned design minimises the sum of -df_i x_i^2 / y_i (which has the derivatives of the objective at the old design) over all designs within the move limits that use no more of the linear part of the constraint, and a multiplier from the interval bounds what an excess can gain; if the new design uses no less of it than the old one, the objective falls along the step to first order by an explicit amount. A variable keeps its value exactly if the first order condition of the original problem on [0,1] holds for it. In every run of sample_optimize_density_oc and sample_truss_sizeoptimization each design is this best move from the one before; if all bars carry a force in the first design and the weight limit is less than 0.575 of the full weight, a run of the truss program reaches a second pass.", "quantifier": "all designs, derivatives, multipliers, move limits, exponents where stated, stateful callbacks, and all runs of the two programs", "why_tests_cant": "optimality compares with a continuum of other designs, for every input, callback and pass of a run", "anchors": ["src/Optimize/Solver/OC.h:76-107", "sample/optimize/sample_optimize_density_oc.cpp", "sample/truss/sample_truss_sizeoptimization.cpp:62-171"]}
{"id": "C146", "title": "When OC returns if its interval starts at zero, and which runs of the programs end", "statement": "With lambdamin = 0, as in all samples: UpdateVariables never returns if no design within the move limits violates the constraint; if the objective falls with every variable and the constraint does not fall when variables rise, it returns exactly if the design with all variables at their upper limits violates the constraint. A bound on the passes of the bisection that is not reached makes no difference. In sample_truss_sizeoptimization, with all bars under force, it returns from a design exactly if raising all variables by 15 per cent (at most to 1) exceeds the limit of the weight; the program reaches its second pass exactly if the limit is less than 0.575, and with a larger limit it hangs in the first pass; if every design can be raised over the limit the program ends. In sample_optimize_density_oc, with all elements strained, it returns exactly if the callback is positive for the raised design, and the program hangs in the first pass if the limit is at least the projection of 0.575. The density program reaches a second pass exactly if the limit is less than the projection of 0.575 with parameter 1, provided that all elements are strained in the first design; if in all passes all elements are strained and the callback is positive for the raised design, it ends, because the objective has settled or after 500 passes.", "quantifier": "all designs, derivatives, callbacks, trusses and meshes that can be analysed, limits and numbers of bisection steps", "why_tests_cant": "that a loop never ends, or ends for every input of a class, cannot be observed in finitely many runs", "anchors": ["src/Optimize/Solver/OC.h:76-107", "sample/truss/sample_truss_sizeoptimization.cpp:62-171", "sample/optimize/sample_optimize_density_oc.cpp:66-208"]}
{"id": "C147", "title": "OC uses up the limit of the constraint", "statement": "With lambdamin = 0, if UpdateVariables returns, a violating design lies nowhere below the returned one and nowhere above it by more than the factor ((1 + eps)/(1 - eps))^iota, and a design that satisfies the constraint (or that of the largest multiplier) lies nowhere above it and nowhere below it by more than this factor. In every run of sample_truss_sizeoptimization every design after the first uses more than 99.9 per cent of the limit of the weight. With a limit of at least 0.425, if in all passes scale0 (A1 - A0) E strain^2 times the limit of the weight is at most 722.5 for every bar, 99.9 per cent of its weight is also at most the limit. In every run of sample_optimize_density_oc every design after the first, filtered with the parameter beta of the pass that made it, has a mean density that is less than the limit by at most 0.0011 beta, where beta is 1 in the first 40 passes and doubles every 40 passes. For a truss with a limit under 0.575, if in all passes every bar carries a force and no variable exceeds 0.998, the program ends, because the objective has settled or after 50 passes.", "quantifier": "all objects with lambdamin = 0, designs, derivatives and callbacks without state; all trusses and density problems that can be analysed, and all passes of all runs", "why_tests_cant": "the claim is about every pass of every run for every truss and density problem, with no bound on the number of bars, elements or bisection steps", "anchors": ["src/Optimize/Solver/OC.h:76-107", "sample/truss/sample_truss_sizeoptimization.cpp:62-171", "sample/optimize/sample_optimize_density_oc.cpp:88-209"]}
{"id": "C148", "title": "Programs that try MMA on small problems", "statement": "In every run of test_MMA, test_MMA_TOY2 and test_MMA_3 nothing undefined is computed, every design lies strictly inside of its box, no variable moves by half of the width of its box in one pass, the values handed to MMA are the objective and the constraints of the problem and their sensitivities are the partial derivatives of these, the loop is left at the first pass whose objective differs from that of the pass before by less than 1e-5 of their sum and never in the first pass, and without that all 10 (or 100) passes are made unless an update does not return.", "quantifier": "all runs of the three programs, whatever the bound on the inner loop of MMA; for the loop itself all problems whose objective is positive and whose values can be computed inside of the box, all boxes, starts inside and numbers of passes", "why_tests_cant": "the designs are the results of an iteration over real numbers with no closed form, and the claim on the loop is about every problem, box and number of passes", "anchors": ["src/Optimize/Solver/test_MMA.cpp:12-77", "src/Optimize/Solver/test_MMA_TOY2.cpp:20-87", "src/Optimize/Solver/test_MMA_3.cpp:12-73", "src/Optimize/Solver/MMA.h:108-330"]}
