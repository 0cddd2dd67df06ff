import Verif.Tensor
import Verif.PointCloud
import Verif.PointCloudLemmas
import Verif.Features
import Verif.Props.PointCloud
import Verif.Props.PointCloud2
import Verif.Grid
import Verif.GridLemmas
import Verif.Props.Grid
import Verif.Neighbors
import Verif.NeighborsLemmas
import Verif.Props.Neighbors
import Verif.Props.Neighbors2
import Verif.Sampling
import Verif.SamplingLemmas
import Verif.Props.Sampling
import Verif.Hierarchy
import Verif.Props.Hierarchy
import Verif.Pdf
import Verif.Props.Pdf
import Verif.Layers
import Verif.Props.Layers
import Verif.Props.Layers2
import Verif.Props.Layers3
import Verif.Props.Layers4
import Verif.Props.Layers5
import Verif.Props.Pooling
import Verif.Kernel
import Verif.Props.Kernel
import Verif.Blocks
import Verif.Props.Blocks
import Verif.IO
import Verif.Props.IO
import Verif.Props.IO2
import Verif.Sched
import Verif.CudaGrid
import Verif.CudaGridLemmas
import Verif.Props.CudaGrid
import Verif.CudaSearch
import Verif.CudaSearchLemmas
import Verif.Props.CudaSearch
import Verif.SchedMem
import Verif.CudaScan
import Verif.CudaScanLemmas
import Verif.CudaScanLemmas2
import Verif.Props.CudaScan
import Verif.CudaStore
import Verif.CudaStoreLemmas
import Verif.CudaCountLemmas
import Verif.Props.CudaStore
import Verif.CudaLimit
import Verif.CudaLimitLemmas
import Verif.Props.CudaLimit
import Verif.CudaSampling
import Verif.CudaSamplingLemmas
import Verif.Props.CudaSampling
import Verif.CudaPdf
import Verif.Props.CudaPdf
import Verif.BlockMem
import Verif.CudaProj
import Verif.CudaProjLemmas
import Verif.CudaProjLemmas2
import Verif.Props.CudaProj
import Verif.Props.Blocks2
import Verif.Props.Train
import Verif.Props.BatchElem
import Verif.Nets
import Verif.Props.HierPool
import Verif.Props.Nets
import Verif.Props.Nets2
import Verif.MachineInt
import Verif.Props.MachineInt
import Verif.Props.MemSafe
import Verif.OpChecks
import Verif.Props.OpChecks
import Verif.SearchInt
import Verif.Props.SearchInt
import Verif.Props.SearchAgree
import Verif.GpuLayer
import Verif.Props.GpuLayer
import Verif.GpuGrad
import Verif.Props.GpuGrad
import Verif.GpuNet
import Verif.Props.GpuHier
import Verif.Props.GpuNet
import Verif.Props.HierRead
import Verif.OpShapes
import Verif.Props.OpShapes
import Verif.DivZero
import Verif.Props.DivZero
import Verif.Pipeline
import Verif.Props.Pipeline
import Verif.Props.OneByOne
import Verif.Reuse
import Verif.Props.Reuse
import Verif.Props.HierCover
import Verif.Props.Rotate
import Verif.Metrics
import Verif.Props.Metrics
import Verif.Race
import Verif.Props.Race
import Verif.Async
import Verif.Props.Async
import Verif.Barrier
import Verif.Props.Barrier
import Verif.Props.Events
import Verif.FloatSearch
import Verif.Props.FloatSearch
import Verif.Props.FloatSpecial
import Verif.Rounded
import Verif.Props.Repro
import Verif.Props.RoundProj
import Verif.Tutorial
import Verif.Props.Tutorial
import Verif.Props.Tutorial2
import Verif.TrainLoop
import Verif.Props.TrainLoop
import Verif.Props.Stable
import Verif.Props.Repeat
import Verif.Props.Local
import Verif.FindCuda
import Verif.Props.FindCuda
import Verif.GpuTut
import Verif.Props.GpuTut
import Verif.Boxes
import Verif.Props.Boxes
import Verif.Rnd
import Verif.RndCert
import Verif.Props.Rnd
import Verif.Props.Resample
import Verif.TwoTest
import Verif.Props.TwoTest
import Verif.AtomicMax
import Verif.Props.AtomicMax
import Verif.Activation
import Verif.Props.Activation
import Verif.Props.Relation
import Verif.Props.Deform
import Verif.Props.Work
import Verif.PairTotal
import Verif.Props.PairTotal
import Verif.Params
import Verif.Props.Params
import Verif.TfGrad
import Verif.Props.TfGrad
import Verif.RoundPdf
import Verif.Props.RoundPdf
import Verif.MlpGrad
import Verif.Props.MlpGrad
import Verif.PoolGrad
import Verif.Props.PoolGrad
import Verif.PcGrad
import Verif.Props.PcGrad
import Verif.HeadGrad
import Verif.Props.HeadGrad
import Verif.NetGrad
import Verif.Props.NetGrad
import Verif.NetGrad40
import Verif.Props.NetGrad40
import Verif.Optim
import Verif.Props.Optim
import Verif.Props.OptimNet
import Verif.NetParams
import Verif.Props.NetParams
import Verif.Props.Move
import Verif.Props.Order
import Verif.Props.OrderGrad
import Verif.Props.Move2
import Verif.Props.Move3
import Verif.Props.TutGrad
import Verif.Props.OptimTut
import Verif.Props.OrderTut
import Verif.Props.SampleSize
import Verif.Props.Units
import Verif.Props.Units2
import Verif.Props.Turn
import Verif.Props.Repeat2
import Verif.Props.Places
import Verif.Props.CudaPool
import Verif.Props.ElemPoisson
import Verif.Props.ElemNet
import Verif.Props.AdamTut
import Verif.Props.OneShape
import Verif.Props.OneShapeConv
import Verif.Audit
