import Verif.Lemmas.ArrayComplex
import Verif.Lemmas.ArrayExpand
import Verif.Lemmas.ArrayInsert
import Verif.Lemmas.ArrayNatural
import Verif.Lemmas.BettiCurve
import Verif.Lemmas.BoundaryPipe
import Verif.Lemmas.BoundaryRows
import Verif.Lemmas.Collapse
import Verif.Lemmas.CollapsedRun
import Verif.Lemmas.Cone
import Verif.Lemmas.Console
import Verif.Lemmas.Dbscan
import Verif.Lemmas.Decimal
import Verif.Lemmas.DenExact
import Verif.Lemmas.DenMerge
import Verif.Lemmas.DenRun
import Verif.Lemmas.DenStream
import Verif.Lemmas.Effects
import Verif.Lemmas.Elimination
import Verif.Lemmas.FarArray
import Verif.Lemmas.FarFast
import Verif.Lemmas.FarPersistence
import Verif.Lemmas.FarTree
import Verif.Lemmas.FastSpec
import Verif.Lemmas.Few
import Verif.Lemmas.Filtered
import Verif.Lemmas.FilteredCheck
import Verif.Lemmas.Homology
import Verif.Lemmas.IndexedCollapse
import Verif.Lemmas.IndexedFind
import Verif.Lemmas.IndexedTree
import Verif.Lemmas.InputOutput
import Verif.Lemmas.KMeans
import Verif.Lemmas.KMeansObjective
import Verif.Lemmas.KdTree
import Verif.Lemmas.Kruskal
import Verif.Lemmas.Line
import Verif.Lemmas.LineGraph
import Verif.Lemmas.Merge
import Verif.Lemmas.Mst
import Verif.Lemmas.Natural
import Verif.Lemmas.Oldest
import Verif.Lemmas.OptPairs
import Verif.Lemmas.Persist
import Verif.Lemmas.Persistence
import Verif.Lemmas.Pipeline
import Verif.Lemmas.Pivots
import Verif.Lemmas.Program
import Verif.Lemmas.ReduceDim
import Verif.Lemmas.ReduceMatrix
import Verif.Lemmas.Reduction
import Verif.Lemmas.Relabel
import Verif.Lemmas.Res
import Verif.Lemmas.Rips
import Verif.Lemmas.Stability
import Verif.Lemmas.StandardRun
import Verif.Lemmas.Subsets
import Verif.Lemmas.TreeComplex
import Verif.Lemmas.TreeHeap
import Verif.Lemmas.TreeInv
import Verif.Lemmas.TreeMemory
import Verif.Lemmas.Truncate
import Verif.Lemmas.TruncateArray
import Verif.Lemmas.TruncatePersistence
import Verif.Lemmas.TwistPairs
import Verif.Lemmas.Windows
import Verif.Model.ArrayComplex
import Verif.Model.Basic
import Verif.Model.BoundaryPipe
import Verif.Model.Collapse
import Verif.Model.CollapsedRun
import Verif.Model.Console
import Verif.Model.Dbscan
import Verif.Model.DenStream
import Verif.Model.DistMatrix
import Verif.Model.Effects
import Verif.Model.FastPersistence
import Verif.Model.IndexedCollapse
import Verif.Model.IndexedTree
import Verif.Model.InputOutput
import Verif.Model.Interface
import Verif.Model.KMeans
import Verif.Model.KdTree
import Verif.Model.Memory
import Verif.Model.Messages
import Verif.Model.PersistProgram
import Verif.Model.PersistencePairs
import Verif.Model.Pipeline
import Verif.Model.Program
import Verif.Model.Signed
import Verif.Model.StandardRun
import Verif.Model.StreamEval
import Verif.Model.StreamingKMeans
import Verif.Model.TreeComplex
import Verif.Model.TreeHeap
import Verif.Model.TwistPairs
import Verif.Model.Utils
import Verif.Model.WindowFiles
import Verif.Model.WindowProgram
import Verif.Model.Windows
import Verif.Props.ArrayComplex
import Verif.Props.ArrayInvariance
import Verif.Props.ArrayTruncation
import Verif.Props.Boundary
import Verif.Props.BoundaryPipe
import Verif.Props.Clusters
import Verif.Props.Collapse
import Verif.Props.CollapsedEffects
import Verif.Props.CollapsedProgram
import Verif.Props.Complete
import Verif.Props.Console
import Verif.Props.Dbscan
import Verif.Props.DebugCollapse
import Verif.Props.DenStream
import Verif.Props.DenStreamArray
import Verif.Props.DimEdges
import Verif.Props.Distance
import Verif.Props.Effects
import Verif.Props.EmptyComplex
import Verif.Props.FarClouds
import Verif.Props.FarCloudsArray
import Verif.Props.FewPoints
import Verif.Props.IndexedCollapse
import Verif.Props.IndexedEffects
import Verif.Props.IndexedPivots
import Verif.Props.IndexedProgram
import Verif.Props.IndexedTree
import Verif.Props.InputOutput
import Verif.Props.Interface
import Verif.Props.Invariance
import Verif.Props.KMeans
import Verif.Props.KdTree
import Verif.Props.Line
import Verif.Props.Log
import Verif.Props.Matrices
import Verif.Props.Memory
import Verif.Props.Messages
import Verif.Props.NaiveComplex
import Verif.Props.OldestPairs
import Verif.Props.Options
import Verif.Props.Partition
import Verif.Props.PastEnd
import Verif.Props.PastEndIndexed
import Verif.Props.PersistProgram
import Verif.Props.Persistence
import Verif.Props.PersistenceCases
import Verif.Props.PersistenceZero
import Verif.Props.Pipeline
import Verif.Props.Preprocessed
import Verif.Props.Printed
import Verif.Props.Program
import Verif.Props.Queries
import Verif.Props.RealBars
import Verif.Props.Reduced
import Verif.Props.Sets
import Verif.Props.Settings
import Verif.Props.SideFiles
import Verif.Props.Signed
import Verif.Props.SlidingDecision
import Verif.Props.SlidingWindow
import Verif.Props.Stability
import Verif.Props.StandardRun
import Verif.Props.StreamEval
import Verif.Props.StreamingKMeans
import Verif.Props.TreeComplex
import Verif.Props.TreeHeap
import Verif.Props.TrueBars
import Verif.Props.Truncation
import Verif.Props.TwistPairs
import Verif.Props.UnstableSort
import Verif.Props.WindowFiles
import Verif.Props.WindowProgram
import Verif.Props.Windows
import Verif.Spec.Args
import Verif.Spec.BinaryMatrix
import Verif.Spec.Collapse
import Verif.Spec.Dbscan
import Verif.Spec.DenStream
import Verif.Spec.Filtered
import Verif.Spec.Graph
import Verif.Spec.Homology
import Verif.Spec.KMeans
import Verif.Spec.Matrix
import Verif.Spec.Oldest
import Verif.Spec.Partition
import Verif.Spec.Rips
import Verif.Spec.RipsHomology
import Verif.Spec.Sets
import Verif.Spec.Text
import Verif.Spec.Windows
