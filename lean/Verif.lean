import Verif.Model.AlgoConfig
import Verif.Model.Base
import Verif.Model.BatchAccess
import Verif.Model.BatchDims
import Verif.Model.BatchHistory
import Verif.Model.BatchMake
import Verif.Model.BatchedSearch
import Verif.Model.BestWorst
import Verif.Model.BoundedRuns
import Verif.Model.Budget
import Verif.Model.CBag
import Verif.Model.CDict
import Verif.Model.CList
import Verif.Model.CListHistory
import Verif.Model.CMAES
import Verif.Model.CMAESMake
import Verif.Model.CMemory
import Verif.Model.Chances
import Verif.Model.Classify
import Verif.Model.ConstraintCalls
import Verif.Model.Constraints
import Verif.Model.ContainerDtype
import Verif.Model.Distribution
import Verif.Model.DistributionObjects
import Verif.Model.EnvPool
import Verif.Model.EnvStep
import Verif.Model.Episodes
import Verif.Model.EvalProtocol
import Verif.Model.ExpGaussian
import Verif.Model.ExpectsNdim
import Verif.Model.ExportedPolicy
import Verif.Model.FitnessDevice
import Verif.Model.Flt
import Verif.Model.FreezeIter
import Verif.Model.FunctionalBuffers
import Verif.Model.FunctionalCalls
import Verif.Model.GA
import Verif.Model.Generations
import Verif.Model.GenerationsOptim
import Verif.Model.GlobalPolynomial
import Verif.Model.GlobalSearch
import Verif.Model.GradRequest
import Verif.Model.GradSampling
import Verif.Model.GridArgs
import Verif.Model.GridPrecision
import Verif.Model.GymRun
import Verif.Model.Heap
import Verif.Model.Hook
import Verif.Model.HookList
import Verif.Model.Illumination
import Verif.Model.IlluminationPolynomial
import Verif.Model.ImmutableContainers
import Verif.Model.InfoBatch
import Verif.Model.Interrupt
import Verif.Model.Layers
import Verif.Model.LogConfig
import Verif.Model.Logger
import Verif.Model.MapElites
import Verif.Model.MemoryShapes
import Verif.Model.Modify
import Verif.Model.NEConfig
import Verif.Model.NanSelection
import Verif.Model.NestedArrays
import Verif.Model.NetParams
import Verif.Model.NetParser
import Verif.Model.ObjectArray
import Verif.Model.ObjectArrayMake
import Verif.Model.ObsSync
import Verif.Model.OperatorConfig
import Verif.Model.OperatorHeap
import Verif.Model.Operators
import Verif.Model.Optimizers
import Verif.Model.ParetoReports
import Verif.Model.ParetoRuns
import Verif.Model.PickleFile
import Verif.Model.Policy
import Verif.Model.PopReport
import Verif.Model.Printing
import Verif.Model.ProblemConfig
import Verif.Model.ProblemLife
import Verif.Model.PyCMAES
import Verif.Model.RandomTensors
import Verif.Model.Randomness
import Verif.Model.Ranking
import Verif.Model.ReadOnlyTensor
import Verif.Model.Recurrent
import Verif.Model.RemoteAccess
import Verif.Model.Report
import Verif.Model.ReportedBest
import Verif.Model.Restart
import Verif.Model.Rounding
import Verif.Model.RoundingRuns
import Verif.Model.RunningNorm
import Verif.Model.SaveSolution
import Verif.Model.SearchAgree
import Verif.Model.SearchCopies
import Verif.Model.SearchTypes
import Verif.Model.Searcher
import Verif.Model.SeededDevices
import Verif.Model.Selection
import Verif.Model.SetEvals
import Verif.Model.SharedNet
import Verif.Model.SolutionObject
import Verif.Model.Status
import Verif.Model.StatusHistory
import Verif.Model.StatusView
import Verif.Model.SupervisedData
import Verif.Model.SupervisedNE
import Verif.Model.SyncVec
import Verif.Model.TensorMaker
import Verif.Model.TensorUtil
import Verif.Model.Testing
import Verif.Model.Unchecked
import Verif.Model.VecEnvMake
import Verif.Model.Workload
import Verif.Proofs.CBag
import Verif.Proofs.CList
import Verif.Proofs.CListHistory
import Verif.Proofs.CMAES
import Verif.Proofs.CMAESNeutral
import Verif.Proofs.CMemory
import Verif.Proofs.Chances
import Verif.Proofs.Cholesky
import Verif.Proofs.FourthMoments
import Verif.Proofs.GaussianPop
import Verif.Proofs.GaussianScore
import Verif.Proofs.Heap
import Verif.Proofs.Modify
import Verif.Proofs.Rounding
import Verif.Proofs.Selection
import Verif.Proofs.Unchecked
import Verif.Props.AlgoConfig
import Verif.Props.BatchAccess
import Verif.Props.BatchDims
import Verif.Props.BatchHistory
import Verif.Props.BatchMake
import Verif.Props.BatchSharing
import Verif.Props.BatchedSearch
import Verif.Props.BestWorst
import Verif.Props.Boundaries
import Verif.Props.BoundedRuns
import Verif.Props.Budget
import Verif.Props.CBag
import Verif.Props.CDict
import Verif.Props.CList
import Verif.Props.CMAES
import Verif.Props.CMAESControl
import Verif.Props.CMAESLimits
import Verif.Props.CMAESMake
import Verif.Props.CMAESNeutral
import Verif.Props.CMemory
import Verif.Props.Chances
import Verif.Props.ChancesOrder
import Verif.Props.Classify
import Verif.Props.ConstraintCalls
import Verif.Props.Constraints
import Verif.Props.ContainerDtype
import Verif.Props.Crowding
import Verif.Props.Distribution
import Verif.Props.DistributionObjects
import Verif.Props.EnvPool
import Verif.Props.EnvStep
import Verif.Props.Episodes
import Verif.Props.EtaLaws
import Verif.Props.EvalProtocol
import Verif.Props.ExpGaussian
import Verif.Props.ExpectsNdim
import Verif.Props.ExportedPolicy
import Verif.Props.FitnessDevice
import Verif.Props.FreezeIter
import Verif.Props.FunctionalBuffers
import Verif.Props.FunctionalCalls
import Verif.Props.GA
import Verif.Props.GlobalPolynomial
import Verif.Props.GlobalSearch
import Verif.Props.GradRequest
import Verif.Props.GradSampling
import Verif.Props.GridArgs
import Verif.Props.GridPrecision
import Verif.Props.GymRun
import Verif.Props.Heap
import Verif.Props.Hook
import Verif.Props.HookList
import Verif.Props.Illumination
import Verif.Props.IlluminationPolynomial
import Verif.Props.ImmutableContainers
import Verif.Props.InfoBatch
import Verif.Props.Interrupt
import Verif.Props.Invariance
import Verif.Props.Layers
import Verif.Props.LinearDivergence
import Verif.Props.LinearDivergenceDist
import Verif.Props.LinearProgress
import Verif.Props.LinearProgressCMA
import Verif.Props.LinearProgressDist
import Verif.Props.LinearProgressOptim
import Verif.Props.LinearProgressSnes
import Verif.Props.LogConfig
import Verif.Props.LogLikelihood
import Verif.Props.Logger
import Verif.Props.MapElites
import Verif.Props.MemoryShapes
import Verif.Props.Modify
import Verif.Props.ModifyVector
import Verif.Props.MomentumAverage
import Verif.Props.NEConfig
import Verif.Props.NanSelection
import Verif.Props.NestedArrays
import Verif.Props.NetParams
import Verif.Props.NetParser
import Verif.Props.NeutralSearch
import Verif.Props.NeverNan
import Verif.Props.ObjectArray
import Verif.Props.ObjectArrayMake
import Verif.Props.ObsSync
import Verif.Props.OperatorConfig
import Verif.Props.OperatorHeap
import Verif.Props.Operators
import Verif.Props.OptimizerRuns
import Verif.Props.Optimizers
import Verif.Props.ParetoReports
import Verif.Props.ParetoRuns
import Verif.Props.PickleFile
import Verif.Props.Policy
import Verif.Props.PolicyRnn
import Verif.Props.PopReport
import Verif.Props.Printing
import Verif.Props.ProblemConfig
import Verif.Props.ProblemLife
import Verif.Props.PyCMAES
import Verif.Props.RandomTensors
import Verif.Props.Randomness
import Verif.Props.Ranking
import Verif.Props.ReadOnlyTensor
import Verif.Props.Recurrent
import Verif.Props.Refusals
import Verif.Props.RemoteAccess
import Verif.Props.Report
import Verif.Props.ReportedBest
import Verif.Props.Restart
import Verif.Props.Rounding
import Verif.Props.RoundingRuns
import Verif.Props.RunningNorm
import Verif.Props.SaveSolution
import Verif.Props.SearchAgree
import Verif.Props.SearchCopies
import Verif.Props.SearchTypes
import Verif.Props.Searcher
import Verif.Props.SeededDevices
import Verif.Props.Selection
import Verif.Props.SelectionPressure
import Verif.Props.SetEvals
import Verif.Props.SharedNet
import Verif.Props.SolutionObject
import Verif.Props.SphereConvergence
import Verif.Props.Status
import Verif.Props.StatusHistory
import Verif.Props.StatusView
import Verif.Props.StdevControl
import Verif.Props.SupervisedData
import Verif.Props.SupervisedNE
import Verif.Props.SyncVec
import Verif.Props.TaintedNorm
import Verif.Props.TensorMaker
import Verif.Props.TensorUtil
import Verif.Props.Testing
import Verif.Props.Unbiased
import Verif.Props.Unchecked
import Verif.Props.VecEnvMake
import Verif.Props.Workload
import Verif.Spec.Bag
import Verif.Spec.BatchHistory
import Verif.Spec.BestWorst
import Verif.Spec.CMAES
import Verif.Spec.Chances
import Verif.Spec.Deque
import Verif.Spec.Episodes
import Verif.Spec.ExpectedFitness
import Verif.Spec.GlobalSearch
import Verif.Spec.Heap
import Verif.Spec.Illumination
import Verif.Spec.LenientDeque
import Verif.Spec.Memory
import Verif.Spec.Modify
import Verif.Spec.Rounding
import Verif.Spec.RunningNorm
import Verif.Spec.SearchTypes
import Verif.Spec.Selection
import Verif.Spec.SetEvals
import Verif.Spec.Workload
