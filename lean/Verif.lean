import Verif.Model.Adaptive
import Verif.Model.AlgEq
import Verif.Model.AlgSys
import Verif.Model.Arrays
import Verif.Model.Assem
import Verif.Model.BasisCache
import Verif.Model.Bdf
import Verif.Model.BlockMats
import Verif.Model.Cheby
import Verif.Model.ClosePatch
import Verif.Model.Colouring
import Verif.Model.Coupled
import Verif.Model.Depend
import Verif.Model.Diag
import Verif.Model.Dirichlet
import Verif.Model.DomainGeom
import Verif.Model.DomainNumbers
import Verif.Model.DomainPart
import Verif.Model.Driver
import Verif.Model.DriverTS
import Verif.Model.EigenMode
import Verif.Model.ElmBlock
import Verif.Model.FieldFile
import Verif.Model.FuncSum
import Verif.Model.Functions
import Verif.Model.GlbForce
import Verif.Model.Immersed
import Verif.Model.LagNodes
import Verif.Model.LagrangeBasis
import Verif.Model.Legendre
import Verif.Model.LogFifo
import Verif.Model.Mapping
import Verif.Model.Mat
import Verif.Model.Matrix
import Verif.Model.Modal
import Verif.Model.Mpc
import Verif.Model.Mpi
import Verif.Model.Multistep
import Verif.Model.MxElement
import Verif.Model.Newmark
import Verif.Model.NodeVec
import Verif.Model.NodeVecFun
import Verif.Model.NonLin
import Verif.Model.Norms
import Verif.Model.Patch
import Verif.Model.PatchGen
import Verif.Model.Projection
import Verif.Model.Quadrature
import Verif.Model.Renumber
import Verif.Model.RungeKutta
import Verif.Model.Sam
import Verif.Model.SamNorms
import Verif.Model.SamPatch
import Verif.Model.SamQuery
import Verif.Model.Solution
import Verif.Model.Sparse
import Verif.Model.SparseMore
import Verif.Model.Supel
import Verif.Model.SysMat
import Verif.Model.Tensor
import Verif.Model.Tensor4
import Verif.Model.ThreadGroups
import Verif.Model.TimeStep
import Verif.Model.Topology
import Verif.Model.Utilities
import Verif.Model.WeakOps
import Verif.Model.XmlInput
import Verif.Spec.Adaptive
import Verif.Spec.AlgSys
import Verif.Spec.BSpline
import Verif.Spec.Bdf
import Verif.Spec.BlockMats
import Verif.Spec.Cheby
import Verif.Spec.ClosePatch
import Verif.Spec.Colouring
import Verif.Spec.Connect
import Verif.Spec.Coupled
import Verif.Spec.Coupling
import Verif.Spec.Depend
import Verif.Spec.Dirichlet
import Verif.Spec.DomainGeom
import Verif.Spec.DomainNumbers
import Verif.Spec.DomainPart
import Verif.Spec.Driver
import Verif.Spec.DriverTS
import Verif.Spec.EigenMode
import Verif.Spec.ElmBlock
import Verif.Spec.FEModel
import Verif.Spec.FieldFile
import Verif.Spec.FuncSum
import Verif.Spec.Galerkin
import Verif.Spec.GlbForce
import Verif.Spec.Immersed
import Verif.Spec.LagNodes
import Verif.Spec.LagrangeBasis
import Verif.Spec.Legendre
import Verif.Spec.LogFifo
import Verif.Spec.Mapping
import Verif.Spec.Matrix
import Verif.Spec.Modal
import Verif.Spec.Mpc
import Verif.Spec.Multistep
import Verif.Spec.Newmark
import Verif.Spec.NodeVec
import Verif.Spec.NodeVecFun
import Verif.Spec.NonLin
import Verif.Spec.Norms
import Verif.Spec.Numbering
import Verif.Spec.Patch
import Verif.Spec.PatchGen
import Verif.Spec.Projection
import Verif.Spec.Quadrature
import Verif.Spec.ReactionSums
import Verif.Spec.Renumber
import Verif.Spec.RungeKutta
import Verif.Spec.SamNorms
import Verif.Spec.SamPatch
import Verif.Spec.Sparse
import Verif.Spec.SparseMachine
import Verif.Spec.Supel
import Verif.Spec.Tensor
import Verif.Spec.Tensor4
import Verif.Spec.ThreadGroups
import Verif.Spec.TimeStep
import Verif.Spec.Topology
import Verif.Spec.Utilities
import Verif.Spec.WeakOps
import Verif.Spec.XmlInput
import Verif.Lemmas.AlgSys
import Verif.Lemmas.Arrays
import Verif.Lemmas.Assem
import Verif.Lemmas.BasisCache
import Verif.Lemmas.BasisCacheInv
import Verif.Lemmas.BasisCacheRun
import Verif.Lemmas.BlockFinal
import Verif.Lemmas.BlockInsert
import Verif.Lemmas.BlockLoop
import Verif.Lemmas.BlockNewton
import Verif.Lemmas.BlockOff
import Verif.Lemmas.BlockSetup
import Verif.Lemmas.Cheby
import Verif.Lemmas.ChebyDeriv
import Verif.Lemmas.ClosePatch
import Verif.Lemmas.Collapse
import Verif.Lemmas.ColourLag
import Verif.Lemmas.Colouring
import Verif.Lemmas.Coupled
import Verif.Lemmas.CoupledRun
import Verif.Lemmas.Coupling
import Verif.Lemmas.Diag
import Verif.Lemmas.Dirichlet
import Verif.Lemmas.DirichletConst
import Verif.Lemmas.DirichletField
import Verif.Lemmas.DirichletRun
import Verif.Lemmas.DomainNumbers
import Verif.Lemmas.DomainRun
import Verif.Lemmas.Driver
import Verif.Lemmas.DriverRestart
import Verif.Lemmas.DriverTS
import Verif.Lemmas.DriverTSBasis
import Verif.Lemmas.DriverTSCodes
import Verif.Lemmas.DriverTSRun
import Verif.Lemmas.FE
import Verif.Lemmas.FEAssem
import Verif.Lemmas.FEExpand
import Verif.Lemmas.FEField
import Verif.Lemmas.FEGlobal
import Verif.Lemmas.FELookup
import Verif.Lemmas.Immersed
import Verif.Lemmas.LagrangeBasis
import Verif.Lemmas.LegendreEig
import Verif.Lemmas.LegendreEval
import Verif.Lemmas.LegendreGauss
import Verif.Lemmas.LegendrePoly
import Verif.Lemmas.LegendreRoots
import Verif.Lemmas.LegendreRules
import Verif.Lemmas.Mapping
import Verif.Lemmas.Matrix
import Verif.Lemmas.Modal
import Verif.Lemmas.Mpi
import Verif.Lemmas.NodeVec
import Verif.Lemmas.PatchGen
import Verif.Lemmas.PatchGenActs
import Verif.Lemmas.PatchGenConn
import Verif.Lemmas.PatchGenSets
import Verif.Lemmas.Projection
import Verif.Lemmas.ProjectionSys
import Verif.Lemmas.QuadElm
import Verif.Lemmas.QuadLoop
import Verif.Lemmas.QuadLoop3
import Verif.Lemmas.QuadPoly
import Verif.Lemmas.QuadRule
import Verif.Lemmas.QuadSplit
import Verif.Lemmas.Reactions
import Verif.Lemmas.Renumber
import Verif.Lemmas.RhsOnly
import Verif.Lemmas.RungeKutta
import Verif.Lemmas.SamEq
import Verif.Lemmas.SamNorms
import Verif.Lemmas.SamPatch
import Verif.Lemmas.SamPatchCeq
import Verif.Lemmas.SamPatchElm
import Verif.Lemmas.SparseCols
import Verif.Lemmas.SparseConv
import Verif.Lemmas.SparseFE
import Verif.Lemmas.SparseMachine
import Verif.Lemmas.SparseOps
import Verif.Lemmas.SparseRepr
import Verif.Lemmas.SparseRounds
import Verif.Lemmas.Sums
import Verif.Lemmas.SupelCondense
import Verif.Lemmas.SupelParts
import Verif.Lemmas.SupelSplit
import Verif.Lemmas.SupelTransform
import Verif.Lemmas.SysMat
import Verif.Lemmas.ThreadGroups
import Verif.Lemmas.ThreadStrips
import Verif.Lemmas.TimeClock
import Verif.Lemmas.TimeReset
import Verif.Lemmas.TimeStep
import Verif.Lemmas.Topology
import Verif.Lemmas.TopologyBoundary
import Verif.Lemmas.VMap
import Verif.Lemmas.WeakOps
import Verif.Lemmas.XmlInput
import Verif.Props.Adaptive
import Verif.Props.AdaptiveDorfel
import Verif.Props.AdaptiveRun
import Verif.Props.AlgSys
import Verif.Props.AlgSysMore
import Verif.Props.AlgSysReact
import Verif.Props.ArrayUtils
import Verif.Props.Assembly
import Verif.Props.BasisCache
import Verif.Props.BasisCacheMore
import Verif.Props.BasisCacheUse
import Verif.Props.Bdf
import Verif.Props.BlockElement
import Verif.Props.BlockMats
import Verif.Props.BlockNumbers
import Verif.Props.Boundary
import Verif.Props.BoundaryCodes
import Verif.Props.Bounds
import Verif.Props.Cheby
import Verif.Props.ChebyMore
import Verif.Props.ClosePatch
import Verif.Props.ClosePatchEx
import Verif.Props.Collapse
import Verif.Props.CollapseEdge
import Verif.Props.Colouring
import Verif.Props.Connect
import Verif.Props.Coupled
import Verif.Props.CoupledIter
import Verif.Props.CoupledMore
import Verif.Props.Couplings
import Verif.Props.Depend
import Verif.Props.DependExtract
import Verif.Props.DependMore
import Verif.Props.Dirichlet
import Verif.Props.DirichletEx
import Verif.Props.DomainGeom
import Verif.Props.DomainNumbers
import Verif.Props.DomainOrient
import Verif.Props.DomainPart
import Verif.Props.Driver
import Verif.Props.DriverRun
import Verif.Props.DriverTS
import Verif.Props.DriverTSInit
import Verif.Props.DriverTSTime
import Verif.Props.DriverTime
import Verif.Props.Edges
import Verif.Props.EigenMode
import Verif.Props.EigenModeRun
import Verif.Props.ElmBlock
import Verif.Props.ElmBlockFill
import Verif.Props.ElmBlockIndex
import Verif.Props.ElmBlockMerge
import Verif.Props.ElmBlockRemove
import Verif.Props.EqnSets
import Verif.Props.FieldFile
import Verif.Props.FuncSum
import Verif.Props.Functions
import Verif.Props.FunctionsShape
import Verif.Props.FunctionsTable
import Verif.Props.GlbForce
import Verif.Props.Immersed
import Verif.Props.ImmersedGeo
import Verif.Props.ImmersedSetup
import Verif.Props.Knots
import Verif.Props.LagNodes
import Verif.Props.LagrangeBasis
import Verif.Props.Legendre
import Verif.Props.Lobatto
import Verif.Props.LogFifo
import Verif.Props.Mapping
import Verif.Props.MappingExamples
import Verif.Props.MappingFace
import Verif.Props.MappingHess
import Verif.Props.MappingMore
import Verif.Props.Matrix
import Verif.Props.MatrixBlock
import Verif.Props.MatrixDet
import Verif.Props.MergeNodes
import Verif.Props.Modal
import Verif.Props.ModalMore
import Verif.Props.Mpc
import Verif.Props.MpcChains
import Verif.Props.Multistep
import Verif.Props.MultistepOrder
import Verif.Props.MxElement
import Verif.Props.Newmark
import Verif.Props.NodeVec
import Verif.Props.NodeVecChk
import Verif.Props.NodeVecFun
import Verif.Props.NonLin
import Verif.Props.Norms
import Verif.Props.Numbering
import Verif.Props.PatchGen
import Verif.Props.PatchGenFrame
import Verif.Props.PatchGenSets
import Verif.Props.PatchGenSets2
import Verif.Props.PatchGenTile
import Verif.Props.Piola
import Verif.Props.PiolaExamples
import Verif.Props.PrescribedReactions
import Verif.Props.Projection
import Verif.Props.ProjectionMore
import Verif.Props.ProjectionOne
import Verif.Props.PullBack
import Verif.Props.QuadCache
import Verif.Props.Quadrature
import Verif.Props.Queries
import Verif.Props.ReactionSums
import Verif.Props.Reactions
import Verif.Props.Refusals
import Verif.Props.Renumber
import Verif.Props.RenumberConn
import Verif.Props.RenumberData
import Verif.Props.Rhs
import Verif.Props.RungeKutta
import Verif.Props.RungeKuttaE
import Verif.Props.SamNorms
import Verif.Props.SamPatch
import Verif.Props.SamPatchEx
import Verif.Props.Solution
import Verif.Props.Sparse
import Verif.Props.SparseMore
import Verif.Props.SplineTopology
import Verif.Props.Supel
import Verif.Props.SupelEx
import Verif.Props.SupelTransform
import Verif.Props.SysMat
import Verif.Props.SysMatMore
import Verif.Props.Tensor
import Verif.Props.Tensor4
import Verif.Props.Tensor4Symm
import Verif.Props.TensorAssign
import Verif.Props.TensorAxes
import Verif.Props.TensorInv
import Verif.Props.TensorJacobi
import Verif.Props.TensorPrincipal
import Verif.Props.TensorRot
import Verif.Props.TensorSmall
import Verif.Props.ThreadFaces
import Verif.Props.ThreadGroups
import Verif.Props.TimeStep
import Verif.Props.Topology
import Verif.Props.Triangles
import Verif.Props.Utilities
import Verif.Props.WeakCompat
import Verif.Props.WeakCompatForms
import Verif.Props.WeakCompatVec
import Verif.Props.WeakConvect
import Verif.Props.WeakExamples
import Verif.Props.WeakOps
import Verif.Props.WeakResidual
import Verif.Props.XmlInput
import Verif.Props.XmlInputMore
