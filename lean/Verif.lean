import Verif.Lemmas.Advection
import Verif.Lemmas.Assembly
import Verif.Lemmas.Beam
import Verif.Lemmas.Brick
import Verif.Lemmas.Cavity
import Verif.Lemmas.Cavity8
import Verif.Lemmas.CavityKernel
import Verif.Lemmas.CavityPressure
import Verif.Lemmas.CellForm
import Verif.Lemmas.Compliance
import Verif.Lemmas.ComplianceForm
import Verif.Lemmas.DecoupledStep
import Verif.Lemmas.Delaunay
import Verif.Lemmas.DelaunayCorners
import Verif.Lemmas.DelaunayInsert
import Verif.Lemmas.DelaunayLongest
import Verif.Lemmas.DelaunayOps
import Verif.Lemmas.DelaunayShort
import Verif.Lemmas.DelaunaySides
import Verif.Lemmas.DelaunaySmooth
import Verif.Lemmas.DelaunaySmooth2
import Verif.Lemmas.DelaunaySteps
import Verif.Lemmas.Dense
import Verif.Lemmas.Diagonal
import Verif.Lemmas.DofTables
import Verif.Lemmas.Elastic
import Verif.Lemmas.Element
import Verif.Lemmas.ElementStorage
import Verif.Lemmas.ElementStorageB
import Verif.Lemmas.ElementStorageFluid
import Verif.Lemmas.ElementStorageLoop
import Verif.Lemmas.ElementStorageNonlinear
import Verif.Lemmas.ElementStorageScalar
import Verif.Lemmas.ElementStorageShell
import Verif.Lemmas.Equilibrium
import Verif.Lemmas.Filter
import Verif.Lemmas.FlowDefined
import Verif.Lemmas.FlowForms
import Verif.Lemmas.FlowLinear
import Verif.Lemmas.FlowTriangle
import Verif.Lemmas.Fluid
import Verif.Lemmas.GroundStructure
import Verif.Lemmas.ILU
import Verif.Lemmas.Krylov
import Verif.Lemmas.KrylovExamples
import Verif.Lemmas.KrylovLoops
import Verif.Lemmas.LU
import Verif.Lemmas.Lanczos
import Verif.Lemmas.LevelSetFirst
import Verif.Lemmas.LevelSetUpdate
import Verif.Lemmas.LevelSetValue
import Verif.Lemmas.LinearAnalysis
import Verif.Lemmas.LoadedAnalysis
import Verif.Lemmas.Loops
import Verif.Lemmas.MatrixDeriv
import Verif.Lemmas.Mesh
import Verif.Lemmas.Neighbours
import Verif.Lemmas.Nonlinear
import Verif.Lemmas.Optimisers
import Verif.Lemmas.Program
import Verif.Lemmas.ProgramCell
import Verif.Lemmas.ProgramDesign
import Verif.Lemmas.ProgramDynamic
import Verif.Lemmas.ProgramElement
import Verif.Lemmas.ProgramFlow
import Verif.Lemmas.ProgramLattice
import Verif.Lemmas.ProgramLatticeRun
import Verif.Lemmas.ProgramLevelSet
import Verif.Lemmas.ProgramNewton
import Verif.Lemmas.ProgramNewtonSolve
import Verif.Lemmas.ProgramOptimize
import Verif.Lemmas.ProgramPost
import Verif.Lemmas.ProgramSolve
import Verif.Lemmas.ProgramTruss
import Verif.Lemmas.ProgramVibration
import Verif.Lemmas.QuadDesign
import Verif.Lemmas.Quads
import Verif.Lemmas.RealExamples
import Verif.Lemmas.Rect8
import Verif.Lemmas.Sharpen
import Verif.Lemmas.Shell
import Verif.Lemmas.ShellFlat
import Verif.Lemmas.ShiftLanczos
import Verif.Lemmas.Sparse
import Verif.Lemmas.SparseConv
import Verif.Lemmas.SparseHistory
import Verif.Lemmas.SquareHeld
import Verif.Lemmas.SquareHeld4
import Verif.Lemmas.SquareProblem
import Verif.Lemmas.StaticExact
import Verif.Lemmas.StaticSemi
import Verif.Lemmas.Sturm
import Verif.Lemmas.Sweeps
import Verif.Lemmas.Text
import Verif.Lemmas.Truss
import Verif.Lemmas.Updated
import Verif.Lemmas.VectorOptimizers
import Verif.Lemmas.VectorSim
import Verif.Lemmas.VectorSolvers
import Verif.Lemmas.Vtk
import Verif.Lemmas.VtkLines
import Verif.Model.Assembly
import Verif.Model.Delaunay
import Verif.Model.Dense
import Verif.Model.Elastic
import Verif.Model.Element
import Verif.Model.ElementStorage
import Verif.Model.ElementStorageFluid
import Verif.Model.ElementStorageNonlinear
import Verif.Model.ElementStorageScalar
import Verif.Model.ElementStorageShell
import Verif.Model.Filter
import Verif.Model.FilterObject
import Verif.Model.Fluid
import Verif.Model.General
import Verif.Model.Heap
import Verif.Model.ILU
import Verif.Model.Krylov
import Verif.Model.LU
import Verif.Model.Lanczos
import Verif.Model.Loops
import Verif.Model.MMA
import Verif.Model.Mesh
import Verif.Model.Nonlinear
import Verif.Model.OC
import Verif.Model.ParSpMV
import Verif.Model.Program
import Verif.Model.ProgramAdvection
import Verif.Model.ProgramBeam
import Verif.Model.ProgramCell
import Verif.Model.ProgramDecoupled
import Verif.Model.ProgramDesign
import Verif.Model.ProgramDynamic
import Verif.Model.ProgramFlow
import Verif.Model.ProgramLattice
import Verif.Model.ProgramLatticeRun
import Verif.Model.ProgramLevelSet
import Verif.Model.ProgramMain
import Verif.Model.ProgramNewton
import Verif.Model.ProgramOptimize
import Verif.Model.ProgramPost
import Verif.Model.ProgramShell
import Verif.Model.ProgramSolid
import Verif.Model.ProgramSquare
import Verif.Model.ProgramStokes
import Verif.Model.ProgramToy
import Verif.Model.ProgramTruss
import Verif.Model.ProgramVibration
import Verif.Model.Shape
import Verif.Model.Shell
import Verif.Model.Sparse
import Verif.Model.Text
import Verif.Model.VectorOptimizers
import Verif.Model.VectorSolvers
import Verif.Model.Vtk
import Verif.Props.C01_Dense
import Verif.Props.C02_Determinant
import Verif.Props.C04_Storage
import Verif.Props.C05_SparseMaps
import Verif.Props.C07_SparseOps
import Verif.Props.C100_Smoothing
import Verif.Props.C101_SmoothingOrient
import Verif.Props.C102_BoundaryMarks
import Verif.Props.C103_SideBound
import Verif.Props.C104_RoughMesh
import Verif.Props.C105_ShiftInvert
import Verif.Props.C106_GeneralShift
import Verif.Props.C108_StaticAnalysis
import Verif.Props.C109_Solvable
import Verif.Props.C10_DirectSolvers
import Verif.Props.C110_Reactions
import Verif.Props.C111_Sensitivity
import Verif.Props.C112_Programs
import Verif.Props.C112_Reaction
import Verif.Props.C112_TimeStepping
import Verif.Props.C113_Boundary
import Verif.Props.C113_Newton
import Verif.Props.C113_Solid
import Verif.Props.C113_SolidCase
import Verif.Props.C114_FirstPass
import Verif.Props.C114_SolidLinear
import Verif.Props.C115_Vibration
import Verif.Props.C116_Semidefinite
import Verif.Props.C117_CellMatrix
import Verif.Props.C118_Homogenization
import Verif.Props.C119_Lattice
import Verif.Props.C11_CG
import Verif.Props.C120_LatticeProblem
import Verif.Props.C121_LatticeRange
import Verif.Props.C122_DensityProblem
import Verif.Props.C123_Optimisation
import Verif.Props.C124_LevelSet
import Verif.Props.C125_Decoupled
import Verif.Props.C126_Truss
import Verif.Props.C127_Flow
import Verif.Props.C128_Determined
import Verif.Props.C129_StokesDivergence
import Verif.Props.C130_Advection
import Verif.Props.C131_Rotation
import Verif.Props.C132_RotationStep
import Verif.Props.C133_Beam
import Verif.Props.C133_Cantilever
import Verif.Props.C134_Shell
import Verif.Props.C134_ShellGrid
import Verif.Props.C135_Cavity
import Verif.Props.C135_Steady
import Verif.Props.C136_VectorSolvers
import Verif.Props.C137_ElementStorage
import Verif.Props.C138_LatticeRun
import Verif.Props.C139_VectorOptimizers
import Verif.Props.C13_BiCGSTAB
import Verif.Props.C140_ScalarStorage
import Verif.Props.C141_FluidStorage
import Verif.Props.C142_NonlinearStorage
import Verif.Props.C143_ShellStorage
import Verif.Props.C144_FilterObject
import Verif.Props.C145_OCOptimal
import Verif.Props.C145_Programs
import Verif.Props.C146_Density
import Verif.Props.C146_DensityEnds
import Verif.Props.C146_Endless
import Verif.Props.C147_Above
import Verif.Props.C147_Density
import Verif.Props.C147_Weight
import Verif.Props.C148_Toys
import Verif.Props.C15_ILU
import Verif.Props.C18_Lanczos
import Verif.Props.C20_DofTables
import Verif.Props.C23_Assembling
import Verif.Props.C27_Shape
import Verif.Props.C31_Quadrature
import Verif.Props.C32_Symmetry
import Verif.Props.C33_RigidMotions
import Verif.Props.C34_Energy
import Verif.Props.C34_QuadKernel
import Verif.Props.C34_QuadStress
import Verif.Props.C35_Splitting
import Verif.Props.C37_Nonlinear
import Verif.Props.C38_TotalLagrange
import Verif.Props.C39_NavierStokes
import Verif.Props.C40_General
import Verif.Props.C43_Filters
import Verif.Props.C46_OC
import Verif.Props.C47_Zero
import Verif.Props.C48_MMA
import Verif.Props.C52_SquareMesh
import Verif.Props.C53_QuadraticMesh
import Verif.Props.C54_DelaunayFixed
import Verif.Props.C54_Fixedlist
import Verif.Props.C55_RingMesh
import Verif.Props.C56_GroundStructure
import Verif.Props.C57_Csv
import Verif.Props.C58_Vtk
import Verif.Props.C58_VtkLines
import Verif.Props.C59_Delaunay
import Verif.Props.C60_Bisection
import Verif.Props.C62_Sturm
import Verif.Props.C63_BeamShell
import Verif.Props.C64_Fluid
import Verif.Props.C66_Stabilisation
import Verif.Props.C71_UpdatedLagrange
import Verif.Props.C74_Measures
import Verif.Props.C79_Patch
import Verif.Props.C81_Homogenization
import Verif.Props.C83_InnerLoop
import Verif.Props.C88_WeakForm
import Verif.Props.C90_MeshGeometry
import Verif.Props.C91_Sides
import Verif.Props.C93_HoleMesh
import Verif.Props.C98_SortElement
import Verif.Props.C99_SortNode
import Verif.Spec.Advection
import Verif.Spec.Beam
import Verif.Spec.Delaunay
import Verif.Spec.Dense
import Verif.Spec.Heap
import Verif.Spec.Jacobian
import Verif.Spec.Krylov
import Verif.Spec.Mesh
import Verif.Spec.PlaneEnergy
import Verif.Spec.Program
import Verif.Spec.ProgramCell
import Verif.Spec.ProgramDecoupled
import Verif.Spec.ProgramDesign
import Verif.Spec.ProgramDynamic
import Verif.Spec.ProgramFlow
import Verif.Spec.ProgramLattice
import Verif.Spec.ProgramLatticeRun
import Verif.Spec.ProgramLevelSet
import Verif.Spec.ProgramMesh
import Verif.Spec.ProgramNewton
import Verif.Spec.ProgramOptimize
import Verif.Spec.ProgramPost
import Verif.Spec.ProgramSolid
import Verif.Spec.ProgramSquare
import Verif.Spec.ProgramStokes
import Verif.Spec.ProgramTruss
import Verif.Spec.ProgramVibration
import Verif.Spec.Shell
import Verif.Spec.Sparse
import Verif.Spec.Text
import Verif.Spec.VectorOptimizers
import Verif.Spec.Vtk
