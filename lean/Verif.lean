import Verif.Props.IntervalEnum
import Verif.Props.IntervalMap
import Verif.Props.DofMap
import Verif.Props.Sparsity
import Verif.Props.GeomIter
import Verif.Props.Symmetry
import Verif.Props.RawMemory
import Verif.Props.DynMem
import Verif.Props.ThreadMem
import Verif.Props.ParFor
import Verif.Props.Geometry
import Verif.Props.Cholesky
import Verif.Props.LU
import Verif.Props.Ordering
import Verif.Props.Enumerator
import Verif.Props.Csc
import Verif.Props.Codes
import Verif.Props.Locking
import Verif.Props.Assembly
import Verif.Props.OrderTable
import Verif.Props.Dirichlet
import Verif.Props.VectorDir
import Verif.Props.Fused
import Verif.Props.Spaces
import Verif.Props.SpacesDeriv
import Verif.Props.SpacesEval
import Verif.Props.Quadrature
import Verif.Model.ExtEnum
import Verif.Spec.ExtEnum
import Verif.Lemmas.ExtLex
import Verif.Lemmas.ExtMap
import Verif.Lemmas.ExtPart
import Verif.Lemmas.ExtSetup
import Verif.Lemmas.ExtRank
import Verif.Lemmas.ExtScan
import Verif.Lemmas.ExtUnrank
import Verif.Lemmas.ExtUnrankHigh
import Verif.Lemmas.ExtUnrankLow
import Verif.Props.ExtEnum
import Verif.Model.Ordered
import Verif.Spec.Ordered
import Verif.Lemmas.Ordered
import Verif.Props.Ordered
import Verif.Model.Elemental
import Verif.Spec.Elemental
import Verif.Lemmas.Elemental
import Verif.Lemmas.Elemental2
import Verif.Lemmas.Elemental3
import Verif.Props.Elemental
import Verif.Props.Elemental2
import Verif.Props.Elemental3
import Verif.Props.ElementalApply
import Verif.Props.OpStack
import Verif.Props.OpStack2
import Verif.Props.OpStack3
import Verif.Props.OpStack4
import Verif.Props.OpStack5
import Verif.Props.OpStack6
import Verif.Props.OpStack7
import Verif.Props.OpStack8
import Verif.Props.Interp
import Verif.Props.Interp2
import Verif.Props.Interp3
import Verif.Props.Region
import Verif.Props.Trace
import Verif.Props.Trace2
import Verif.Props.DofCoord
import Verif.Props.CtOp2
import Verif.Props.Order
import Verif.Props.SpaceOp
import Verif.Props.SpaceOpRt2
import Verif.Props.Driver3
import Verif.Props.Eval3
import Verif.Props.AutoDiff
import Verif.Props.Tensor
import Verif.Props.Tensor4
import Verif.Props.Strain
import Verif.Props.StrainKin
import Verif.Props.QR
import Verif.Props.Jacobi
import Verif.Props.SVD
import Verif.Props.Demand
import Verif.Props.SpaceAlg
import Verif.Props.SpaceEq
import Verif.Props.Metric
import Verif.Props.Metric2
import Verif.Props.Metric3
import Verif.Props.MetricHess
import Verif.Props.ExtBound
import Verif.Props.BoxMesh
import Verif.Props.Diffusion
import Verif.Props.Diffusion2
import Verif.Props.GeomWalk
import Verif.Props.TagCopy
import Verif.Props.Reorder
import Verif.Props.LocalFn
import Verif.Props.FnMem
import Verif.Props.Det
import Verif.Props.GidMap
import Verif.Props.MeshInt
import Verif.Props.Gather
import Verif.Props.InterpConst
import Verif.Props.VecIter
import Verif.Props.NVector
import Verif.Props.KinParam
import Verif.Props.DirTwo
import Verif.Props.LowerIndex
import Verif.Props.GlobEnum
import Verif.Props.AniOrder
import Verif.Props.VarTag
