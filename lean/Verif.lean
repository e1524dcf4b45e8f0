import Verif.Props.CacheGens
import Verif.Props.CircularBuffer
import Verif.Props.FifoCache
import Verif.Props.Bitset
import Verif.Props.Float
import Verif.Props.ParetoFront
import Verif.Props.MergePareto
import Verif.Props.NdSort
import Verif.Props.Crossover
import Verif.Props.Sample
import Verif.Props.Rng
import Verif.Props.Operators
import Verif.Props.Mutation
import Verif.Props.RealCrossover
import Verif.Props.Stats
import Verif.Props.StopCondition
import Verif.Props.Scope
import Verif.Props.Algorithm
import Verif.Props.Selection
import Verif.Props.Replacement
import Verif.Props.Nsga2
import Verif.Props.Nsga3
import Verif.Props.ConeTree
import Verif.Props.GaLoop
import Verif.Props.Encoding
import Verif.Props.Settings
import Verif.Props.GaAlgorithms
import Verif.Props.Locks
import Verif.Props.ConcurrentQueue
import Verif.Props.Rcu
import Verif.Props.ThreadPool
import Verif.Props.SmallVector
import Verif.Props.Matrix
import Verif.Props.MatrixRows
import Verif.Props.EqualParents
import Verif.Props.AnyGenes
import Verif.Props.CallbackAnyGenes
import Verif.Props.EvalBudget
import Verif.Props.Problems
import Verif.Props.Benchmarks
import Verif.Model.BenchmarkPoints
import Verif.Spec.BenchmarkPoints
import Verif.Props.BenchmarkPoints
import Verif.Props.BenchmarkFronts
import Verif.Props.BenchmarkDtlz
import Verif.Props.BenchmarkDtlz7
import Verif.Props.BenchmarkKursawe
import Verif.Model.BenchmarkSchwefel
import Verif.Props.BenchmarkSchwefel
import Verif.Props.RefLines
import Verif.Props.Hypervolume
import Verif.Props.Double
import Verif.Props.DoubleSelect
import Verif.Props.DoubleSelectMethods
import Verif.Model.Iterators
import Verif.Spec.Iterators
import Verif.Props.Iterators
import Verif.Model.BoundedValue
import Verif.Spec.BoundedValue
import Verif.Props.BoundedValue
import Verif.Props.DoubleRounding
import Verif.Spec.GaDomain
import Verif.Proofs.GaDomain
import Verif.Props.GaDomain
import Verif.Spec.GaReproducible
import Verif.Proofs.GaReproducible
import Verif.Proofs.Nsga3Fresh
import Verif.Props.GaReproducible
import Verif.Model.CandidateHash
import Verif.Spec.CandidateHash
import Verif.Props.CandidateHash
import Verif.Model.MetricSet
import Verif.Props.MetricSet
import Verif.Spec.GaBest
import Verif.Props.GaBest
import Verif.Model.GaDynamic
import Verif.Spec.GaDynamic
import Verif.Props.GaDynamic
import Verif.Model.PoolLife
import Verif.Spec.PoolLife
import Verif.Proofs.PoolLife
import Verif.Props.PoolLife
import Verif.Model.MathFns
import Verif.Props.MathFns
import Verif.Spec.Tolerant
import Verif.Proofs.TolMerge
import Verif.Proofs.Tolerant
import Verif.Proofs.TolFront
import Verif.Proofs.TolRun
import Verif.Props.Tolerant
import Verif.Model.TspData
import Verif.Spec.TspOptima
import Verif.Proofs.TspBound
import Verif.Proofs.TspCert52
import Verif.Proofs.TspCert76
import Verif.Proofs.TspCert124
import Verif.Proofs.TspCert152
import Verif.Proofs.TspCert226
import Verif.Proofs.TspCert299
import Verif.Proofs.TspCert439
import Verif.Props.TspOptima
import Verif.Proofs.Uniform
import Verif.Props.Uniform
import Verif.Proofs.SelectionCount
import Verif.Props.SelectionChance
import Verif.Model.SeededRun
import Verif.Proofs.SeededRun
import Verif.Props.SeededRun
import Verif.Model.SelectionParams
import Verif.Spec.SelectionPressure
import Verif.Props.SelectionPressure
import Verif.Model.Rates
import Verif.Spec.Draws
import Verif.Proofs.Draws
import Verif.Props.Rates
import Verif.Props.RatesNormal
import Verif.Model.MutationParams
import Verif.Spec.MutationShape
import Verif.Props.MutationShape
import Verif.Spec.CrossoverShape
import Verif.Proofs.SbxShape
import Verif.Props.CrossoverShape
import Verif.Model.Callback
import Verif.Proofs.Callback
import Verif.Props.Callback
import Verif.Spec.Reach
import Verif.Proofs.Reach
import Verif.Props.Reach
import Verif.Props.CrossoverRepeat
import Verif.Spec.Convergence
import Verif.Proofs.Convergence
import Verif.Props.Convergence
import Verif.Spec.ConvergenceInt
import Verif.Props.ConvergenceInt
import Verif.Spec.ConvergencePerm
import Verif.Props.ConvergencePerm
import Verif.Spec.ConvergenceReal
import Verif.Props.ConvergenceReal
import Verif.Props.DoubleInfinite
import Verif.Props.DoubleNsga2
import Verif.Props.DoubleMulti
import Verif.Props.DoubleNsga3
import Verif.Props.DoubleRefLines
import Verif.Props.DoubleSimplexMaps
import Verif.Props.DoubleNsga3Dist
import Verif.Props.DoubleNsga3Run
import Verif.Props.DoubleStats
import Verif.Props.Functional
import Verif.Spec.HypervolumeTol
import Verif.Proofs.HypervolumeTol
import Verif.Props.HypervolumeTol
import Verif.Props.NadirPoint
import Verif.Proofs.CircularOwnership
import Verif.Props.CircularOwnership
import Verif.Model.SmallVectorThrow
import Verif.Spec.SmallVectorThrow
import Verif.Proofs.SmallVectorThrow
import Verif.Proofs.SmallVectorThrowOps
import Verif.Proofs.SmallVectorThrowCalls
import Verif.Proofs.SmallVectorThrowMove
import Verif.Proofs.SmallVectorThrowSwap
import Verif.Proofs.SmallVectorThrowRun
import Verif.Props.SmallVectorThrow
import Verif.Model.CacheVars
import Verif.Spec.CacheVars
import Verif.Proofs.CacheVars
import Verif.Proofs.CacheVarsRun
import Verif.Props.CacheVars
