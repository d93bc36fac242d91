import Verif.Model.Assembly
import Verif.Model.AssemblyPattern
import Verif.Model.BarycentricCoords
import Verif.Model.BitArray
import Verif.Model.Blas
import Verif.Model.Block
import Verif.Model.BoundaryLayer
import Verif.Model.CSR
import Verif.Model.CellCenters
import Verif.Model.CellConnectivity
import Verif.Model.CellExchange
import Verif.Model.CellFinder
import Verif.Model.ClusterPairs
import Verif.Model.ClusterRefine
import Verif.Model.ClusterTree
import Verif.Model.CombinedDofs
import Verif.Model.Cuthill
import Verif.Model.Delayed
import Verif.Model.Dependencies
import Verif.Model.Direct
import Verif.Model.Distributed
import Verif.Model.DoFMap
import Verif.Model.DofRenumbering
import Verif.Model.Drop
import Verif.Model.EdgeElements
import Verif.Model.EdgeKey
import Verif.Model.Eigenvalues
import Verif.Model.Entries
import Verif.Model.ExtendOverlap
import Verif.Model.FaceVals
import Verif.Model.Factory
import Verif.Model.FlexibleCG
import Verif.Model.FractionalOrders
import Verif.Model.Functions
import Verif.Model.GMRES
import Verif.Model.Galerkin
import Verif.Model.GradRHS
import Verif.Model.GridLevels
import Verif.Model.GridLookup
import Verif.Model.H2Matrix
import Verif.Model.Hierarchies
import Verif.Model.HierarchyParts
import Verif.Model.IChol
import Verif.Model.IJ
import Verif.Model.IndexSet
import Verif.Model.InnerProducts
import Verif.Model.Interp
import Verif.Model.IntervalMesh
import Verif.Model.JumpMatrix
import Verif.Model.KernelScaling
import Verif.Model.Kernels
import Verif.Model.Krylov
import Verif.Model.L1Weights
import Verif.Model.LevelErrors
import Verif.Model.LevelMatrices
import Verif.Model.LevelStorage
import Verif.Model.LoadVector
import Verif.Model.LocalMatrices
import Verif.Model.Loops
import Verif.Model.MatrixOps
import Verif.Model.MeshBoundary
import Verif.Model.MeshObject
import Verif.Model.MeshSize
import Verif.Model.MeshTransform
import Verif.Model.MeshVertices
import Verif.Model.Multigrid
import Verif.Model.NearField
import Verif.Model.NewInterfaces
import Verif.Model.NonlocalAssembly
import Verif.Model.Normalization
import Verif.Model.OpAlgebra
import Verif.Model.OrderIntervals
import Verif.Model.Overlap
import Verif.Model.OverlapWeights
import Verif.Model.PanelType
import Verif.Model.Parameters
import Verif.Model.ParametrizedArgs
import Verif.Model.Partition
import Verif.Model.PartitionNumbers
import Verif.Model.ProductIterator
import Verif.Model.Quadrature
import Verif.Model.Refine
import Verif.Model.RefineBoundary
import Verif.Model.RelativePosition
import Verif.Model.RepartitionWeights
import Verif.Model.Reports
import Verif.Model.Restriction
import Verif.Model.RestrictionTables
import Verif.Model.SSS
import Verif.Model.SSSThreads
import Verif.Model.Schur
import Verif.Model.Segments
import Verif.Model.ShapeFunctions
import Verif.Model.SharedDofs
import Verif.Model.SharedMesh
import Verif.Model.SimplexGeometry
import Verif.Model.SimplexMapper
import Verif.Model.Smoothers
import Verif.Model.Solutions
import Verif.Model.SortIndices
import Verif.Model.SortedRow
import Verif.Model.SparsityPattern
import Verif.Model.Splitting
import Verif.Model.Stitch
import Verif.Model.StructuredMesh
import Verif.Model.SubSimplices
import Verif.Model.SubSolution
import Verif.Model.SurfaceEntities
import Verif.Model.SurfaceProlongation
import Verif.Model.TimeStepping
import Verif.Model.Timers
import Verif.Model.Transfer
import Verif.Model.Transpose
import Verif.Model.TreeSearch
import Verif.Model.TupleDict
import Verif.Model.TwoPoint
import Verif.Model.YamlDict
import Verif.Proof.Assembly
import Verif.Proof.Assembly2
import Verif.Proof.BiCGStab
import Verif.Proof.BitArray
import Verif.Proof.Blas
import Verif.Proof.Block
import Verif.Proof.BoundaryLayer
import Verif.Proof.CG
import Verif.Proof.CGTheory
import Verif.Proof.CSR
import Verif.Proof.CSRLayout
import Verif.Proof.CellConnectivity
import Verif.Proof.CellExchange
import Verif.Proof.CellFinder
import Verif.Proof.Chebyshev
import Verif.Proof.ClusterPairs
import Verif.Proof.ClusterRefine
import Verif.Proof.ClusterTree
import Verif.Proof.Cuthill
import Verif.Proof.Cuthill2
import Verif.Proof.Cuthill3
import Verif.Proof.Dependencies
import Verif.Proof.Direct
import Verif.Proof.Direct2
import Verif.Proof.Direct3
import Verif.Proof.Distributed
import Verif.Proof.DoFMap
import Verif.Proof.DoFMap2
import Verif.Proof.DoFReset
import Verif.Proof.DofRenumbering
import Verif.Proof.Drop
import Verif.Proof.Eigenvalues
import Verif.Proof.EigenvaluesMore
import Verif.Proof.Entries
import Verif.Proof.ExtendOverlap
import Verif.Proof.FaceVals
import Verif.Proof.Factory
import Verif.Proof.GMRES
import Verif.Proof.GMRESTheory
import Verif.Proof.Galerkin
import Verif.Proof.Galerkin2
import Verif.Proof.GridLevels
import Verif.Proof.H2Matrix
import Verif.Proof.Hierarchies
import Verif.Proof.IChol
import Verif.Proof.IndexSet
import Verif.Proof.InnerProducts
import Verif.Proof.Interp
import Verif.Proof.IntervalMesh
import Verif.Proof.KernelScaling
import Verif.Proof.Kernels
import Verif.Proof.Laplace
import Verif.Proof.LevelErrors
import Verif.Proof.LevelMatrices
import Verif.Proof.LoadVector
import Verif.Proof.LocalMatrices
import Verif.Proof.LocalMatrices2
import Verif.Proof.LocalMatrices3
import Verif.Proof.Loops
import Verif.Proof.MatrixOps
import Verif.Proof.MeshBoundary
import Verif.Proof.MeshObject
import Verif.Proof.MeshSize
import Verif.Proof.MeshTransform
import Verif.Proof.Moments
import Verif.Proof.Multigrid
import Verif.Proof.Multigrid2
import Verif.Proof.Multigrid3
import Verif.Proof.NearField
import Verif.Proof.NearField2
import Verif.Proof.NearField3
import Verif.Proof.NearField4
import Verif.Proof.NewInterfaces
import Verif.Proof.NonlocalAssembly
import Verif.Proof.NonlocalAssembly2
import Verif.Proof.NonlocalEntry
import Verif.Proof.NonlocalSparse
import Verif.Proof.Normalization
import Verif.Proof.OpAlgebra
import Verif.Proof.OpProgram
import Verif.Proof.OpResidual
import Verif.Proof.OptionMap
import Verif.Proof.OrderIntervals
import Verif.Proof.Overlap
import Verif.Proof.Overlap2
import Verif.Proof.Overlap3
import Verif.Proof.Overlap4
import Verif.Proof.OverlapExample
import Verif.Proof.PanelDoFs
import Verif.Proof.PanelRank
import Verif.Proof.PanelType
import Verif.Proof.Parameters
import Verif.Proof.Partition
import Verif.Proof.PartitionNumbers
import Verif.Proof.ProductIterator
import Verif.Proof.Quadrature
import Verif.Proof.QuadratureRules
import Verif.Proof.Refine
import Verif.Proof.Refine2
import Verif.Proof.RefineTiling
import Verif.Proof.RelativePosition
import Verif.Proof.Reports
import Verif.Proof.RestrictionEntries
import Verif.Proof.RestrictionExact
import Verif.Proof.RestrictionGlobal
import Verif.Proof.RestrictionLocal
import Verif.Proof.RestrictionMatrix
import Verif.Proof.RestrictionTables
import Verif.Proof.RowDist
import Verif.Proof.SSS
import Verif.Proof.Schur
import Verif.Proof.Segments
import Verif.Proof.SetAll
import Verif.Proof.ShapeFunctions
import Verif.Proof.SharedMesh
import Verif.Proof.SimplexGeometry
import Verif.Proof.SimplexPolynomial
import Verif.Proof.Smoothers
import Verif.Proof.Smoothers2
import Verif.Proof.SortIndices
import Verif.Proof.SortedRow
import Verif.Proof.SparsityPattern
import Verif.Proof.Splitting
import Verif.Proof.Stitch
import Verif.Proof.StructuredMesh
import Verif.Proof.SubSimplices
import Verif.Proof.SubSimplices2
import Verif.Proof.SubSimplices3
import Verif.Proof.SubSolution
import Verif.Proof.SurfaceEntities
import Verif.Proof.TimeStepping
import Verif.Proof.TimeStepping2
import Verif.Proof.Timers
import Verif.Proof.Transfer
import Verif.Proof.Transpose
import Verif.Proof.TreeSearch
import Verif.Proof.TupleDict
import Verif.Proof.TupleDictIter
import Verif.Proof.Vec
import Verif.Props.C01
import Verif.Props.C02
import Verif.Props.C03
import Verif.Props.C04
import Verif.Props.C05
import Verif.Props.C06
import Verif.Props.C07
import Verif.Props.C08
import Verif.Props.C09
import Verif.Props.C10
import Verif.Props.C100
import Verif.Props.C101
import Verif.Props.C102
import Verif.Props.C103
import Verif.Props.C104
import Verif.Props.C105
import Verif.Props.C106
import Verif.Props.C107
import Verif.Props.C108
import Verif.Props.C109
import Verif.Props.C11
import Verif.Props.C110
import Verif.Props.C111
import Verif.Props.C112
import Verif.Props.C113
import Verif.Props.C114
import Verif.Props.C115
import Verif.Props.C116
import Verif.Props.C117
import Verif.Props.C118
import Verif.Props.C119
import Verif.Props.C12
import Verif.Props.C120
import Verif.Props.C121
import Verif.Props.C122
import Verif.Props.C123
import Verif.Props.C124
import Verif.Props.C125
import Verif.Props.C126
import Verif.Props.C127
import Verif.Props.C128
import Verif.Props.C13
import Verif.Props.C14
import Verif.Props.C15
import Verif.Props.C16
import Verif.Props.C17
import Verif.Props.C18
import Verif.Props.C19
import Verif.Props.C20
import Verif.Props.C21
import Verif.Props.C22
import Verif.Props.C23
import Verif.Props.C24
import Verif.Props.C25
import Verif.Props.C26
import Verif.Props.C27
import Verif.Props.C28
import Verif.Props.C29
import Verif.Props.C30
import Verif.Props.C31
import Verif.Props.C32
import Verif.Props.C33
import Verif.Props.C34
import Verif.Props.C35
import Verif.Props.C36
import Verif.Props.C37
import Verif.Props.C38
import Verif.Props.C39
import Verif.Props.C40
import Verif.Props.C41
import Verif.Props.C42
import Verif.Props.C43
import Verif.Props.C44
import Verif.Props.C45
import Verif.Props.C46
import Verif.Props.C47
import Verif.Props.C48
import Verif.Props.C49
import Verif.Props.C50
import Verif.Props.C51
import Verif.Props.C52
import Verif.Props.C53
import Verif.Props.C54
import Verif.Props.C55
import Verif.Props.C56
import Verif.Props.C57
import Verif.Props.C58
import Verif.Props.C59
import Verif.Props.C60
import Verif.Props.C61
import Verif.Props.C62
import Verif.Props.C63
import Verif.Props.C64
import Verif.Props.C65
import Verif.Props.C66
import Verif.Props.C67
import Verif.Props.C68
import Verif.Props.C69
import Verif.Props.C70
import Verif.Props.C71
import Verif.Props.C72
import Verif.Props.C73
import Verif.Props.C74
import Verif.Props.C75
import Verif.Props.C76
import Verif.Props.C77
import Verif.Props.C78
import Verif.Props.C79
import Verif.Props.C80
import Verif.Props.C81
import Verif.Props.C82
import Verif.Props.C83
import Verif.Props.C84
import Verif.Props.C85
import Verif.Props.C86
import Verif.Props.C87
import Verif.Props.C88
import Verif.Props.C89
import Verif.Props.C90
import Verif.Props.C91
import Verif.Props.C92
import Verif.Props.C93
import Verif.Props.C94
import Verif.Props.C95
import Verif.Props.C96
import Verif.Props.C97
import Verif.Props.C98
import Verif.Props.C99
import Verif.Spec.Barycentric
import Verif.Spec.Block
import Verif.Spec.CSR
import Verif.Spec.Dependencies
import Verif.Spec.Distributed
import Verif.Spec.DoFMap
import Verif.Spec.EdgeMap
import Verif.Spec.Eigenvalues
import Verif.Spec.FaceMap
import Verif.Spec.GMRES
import Verif.Spec.H2Matrix
import Verif.Spec.InnerProducts
import Verif.Spec.Interaction
import Verif.Spec.Interpolation
import Verif.Spec.Kernels
import Verif.Spec.Krylov
import Verif.Spec.Laplace
import Verif.Spec.Layers
import Verif.Spec.Matrix
import Verif.Spec.MeshObject
import Verif.Spec.MeshSize
import Verif.Spec.Moments
import Verif.Spec.Multigrid
import Verif.Spec.OpAlgebra
import Verif.Spec.OrderIntervals
import Verif.Spec.Ordering
import Verif.Spec.Overlap
import Verif.Spec.Parameters
import Verif.Spec.Quadrature
import Verif.Spec.Reports
import Verif.Spec.Restriction
import Verif.Spec.SimplexPolynomial
import Verif.Spec.Simplices
import Verif.Spec.SmootherOps
import Verif.Spec.Smoothers
import Verif.Spec.Stitch
import Verif.Spec.Symmetric
import Verif.Spec.TimeStepping
import Verif.Spec.Timers
import Verif.Spec.TreeSearch
import Verif.Spec.Triangular
import Verif.Spec.Triangulation
import Verif.Spec.Triple
import Verif.Spec.Vec
